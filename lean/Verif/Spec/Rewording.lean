/-
Ledgers written in another way: other decimals, or other words for the same transactions.
-/
import Verif.Spec.Continued
import Verif.Spec.Renaming

namespace Limabean
namespace Spec

/-- The same amount, maybe with more or fewer decimals. -/
def EqualAmount (u v : Dec) : Prop := v.val = u.val

/-- The same lot, up to decimals. -/
def EqualLot (l l' : LotCost) : Prop :=
  l' = { l with units := l'.units, perUnit := l'.perUnit, total := l'.total } ∧
    EqualAmount l.units l'.units ∧ EqualAmount l.perUnit l'.perUnit ∧ EqualAmount l.total l'.total

/-- The same price, up to decimals. -/
def EqualPrice (p p' : Booked.Price) : Prop :=
  p'.cur = p.cur ∧ EqualAmount p.perUnit p'.perUnit ∧ Option.Rel EqualAmount p.total p'.total

/-- The booking library makes the same of two postings, up to decimals. -/
structure EqualInterpolated (i i' : Interpolated) : Prop where
  units : EqualAmount i.units i'.units
  currency : i'.currency = i.currency
  cost : Option.Rel (List.Forall₂ EqualLot) i.cost i'.cost
  price : Option.Rel EqualPrice i.price i'.price

/-- The booking library refuses both, for the transaction or for the same posting, maybe in other words; or it makes the same of both, and
what the accounts then hold is alike. -/
inductive EqualAnswer {L : BookLib} (alike : L.Pos → L.Pos → Prop) (held held' : Str → Option L.Pos) :
    Except BookError (Bookings L.Pos) → Except BookError (Bookings L.Pos) → Prop
  | refused {e e'} : BookError.Alike e e' → EqualAnswer alike held held' (.error e) (.error e')
  | booked {is is' us us'} : List.Forall₂ EqualInterpolated is is' →
      (∀ a, Option.Rel alike (heldAfter held us a) (heldAfter held' us' a)) → EqualAnswer alike held held' (.ok ⟨is, us⟩) (.ok ⟨is', us'⟩)

/-- A posting for the same account, with the same things besides amount, cost and price. -/
structure EqualLine (p p' : Raw.PostingSpec) : Prop where
  acc : p'.acc = p.acc
  flag : p'.flag = p.flag
  tags : p'.tags = p.tags
  links : p'.links = p.links
  metadata : p'.metadata = p.metadata

/-- A directive written in another way. Of a transaction, the amounts, costs and prices of the postings may be written otherwise, if the
booking library books them alike whatever the accounts hold. Of an assertion, the amount may have other decimals and its tolerance be
written otherwise, if that is the same tolerance. -/
inductive Rewritten (L : BookLib) (tol : Tolerance) (alike : L.Pos → L.Pos → Prop) : Raw.Directive → Raw.Directive → Prop
  | same (d span) : Rewritten L tol alike d { d with span := span }
  | transaction {d t ps} (span) : d.variant = .transaction t → List.Forall₂ EqualLine t.postings ps →
      (∀ held held' method, (∀ a, Option.Rel alike (held a) (held' a)) →
        EqualAnswer alike held held' (L.book d.date t.postings tol held method) (L.book d.date ps tol held' method)) →
      Rewritten L tol alike d { d with span := span, variant := .transaction { t with postings := ps } }
  | balance {d b b'} (span) : d.variant = .balance b → b'.acc = b.acc → b'.cur = b.cur → EqualAmount b.units b'.units →
      tolerance tol.multiplier b' = tolerance tol.multiplier b →
      Rewritten L tol alike d { d with span := span, variant := .balance b' }

/-- Holdings which are alike are of the same amounts, and remain alike: when the same amount is added, and when the library books the same
transaction. -/
structure BlindToDecimals (L : BookLib) (tol : Tolerance) (alike : L.Pos → L.Pos → Prop) : Prop where
  empty : alike L.empty L.empty
  units : ∀ p q cur, alike p q → EqualAmount (L.units p cur) (L.units q cur)
  accumulate : ∀ p q u v cur, alike p q → EqualAmount u v → alike (L.accumulate p u cur L.dflt) (L.accumulate q v cur L.dflt)
  book : ∀ date ps held held' method, (∀ a, Option.Rel alike (held a) (held' a)) →
    EqualAnswer alike held held' (L.book date ps tol held method) (L.book date ps tol held' method)

/-- The same cost, up to decimals. -/
def EqualCost (c c' : Booked.Cost) : Prop :=
  c' = { c with perUnit := c'.perUnit, total := c'.total } ∧ EqualAmount c.perUnit c'.perUnit ∧ EqualAmount c.total c'.total

/-- The same posting, up to decimals. -/
def EqualPosting (p q : Booked.Posting) : Prop :=
  q = { p with units := q.units, cost := q.cost, price := q.price } ∧ EqualAmount p.units q.units ∧ Option.Rel EqualCost p.cost q.cost ∧
    Option.Rel EqualPrice p.price q.price

/-- The same, up to decimals. -/
inductive EqualVariant : Booked.Variant → Booked.Variant → Prop
  | same (v) : EqualVariant v v
  | transaction {t ps} : List.Forall₂ EqualPosting t.postings ps → EqualVariant (.transaction t) (.transaction { t with postings := ps })
  | balance {b raw} : raw.acc = b.raw.acc → raw.cur = b.raw.cur → EqualAmount b.raw.units raw.units →
      EqualVariant (.balance b) (.balance { b with raw := raw })

/-- The same directive, up to decimals. -/
def EqualBooked (d d' : Booked.Directive) : Prop := d' = { d with variant := d'.variant } ∧ EqualVariant d.variant d'.variant

/-- The same reason: the text of the library may differ, and so may the statement of an account and the decimals of the amount by which an
assertion is off. -/
inductive EqualReason : Reason → Reason → Prop
  | same (x) : EqualReason x x
  | library (text text') : EqualReason (.library text) (.library text')
  | libraryPosting (i text text') : EqualReason (.libraryPosting text i) (.libraryPosting text' i)
  | accumulated (total total' cur) {units units'} : EqualAmount units units' →
      EqualReason (.accumulated total units cur) (.accumulated total' units' cur)

/-- Reports at the same place, referring to the same directives, for the same reason. -/
structure EqualReport (x y : IndexedReport) : Prop where
  place : y.idx = x.idx
  related : y.related = x.related
  reason : EqualReason x.reason y.reason

/-- The same happens, up to decimals. -/
inductive EqualOutcome : Outcome → Outcome → Prop
  | panic : EqualOutcome .panic .panic
  | success {out out' w} : List.Forall₂ EqualBooked out out' → EqualOutcome (.success out w) (.success out' w)
  | failure {es es' xs ys} : es.Perm xs → es'.Perm ys → List.Forall₂ EqualReport xs ys → EqualOutcome (.failure es) (.failure es')

end Spec
end Limabean
