/-
Ledgers counted in other units: so many of the new for one of the old, for each currency.
-/
import Verif.Spec.Rewording

namespace Limabean
namespace Spec

/-- `k` times the amount. -/
def ScaledAmount (k : ℚ) (u v : Dec) : Prop := v.val = k * u.val

variable (f : Str → ℚ)

/-- A lot of units of the currency `cur`: so many times the units, at a cost for each which makes the total so many times as much. -/
def ScaledLot (cur : Str) (l l' : LotCost) : Prop :=
  l' = { l with units := l'.units, perUnit := l'.perUnit, total := l'.total } ∧
    ScaledAmount (f cur) l.units l'.units ∧ ScaledAmount (f l.cur / f cur) l.perUnit l'.perUnit ∧ ScaledAmount (f l.cur) l.total l'.total

/-- A price of units of the currency `cur`. -/
def ScaledPrice (cur : Str) (p p' : Booked.Price) : Prop :=
  p'.cur = p.cur ∧ ScaledAmount (f p.cur / f cur) p.perUnit p'.perUnit ∧ Option.Rel (ScaledAmount (f p.cur)) p.total p'.total

/-- What the booking library makes of two postings. -/
structure ScaledInterpolated (i i' : Interpolated) : Prop where
  units : ScaledAmount (f i.currency) i.units i'.units
  currency : i'.currency = i.currency
  cost : Option.Rel (List.Forall₂ (ScaledLot f i.currency)) i.cost i'.cost
  price : Option.Rel (ScaledPrice f i.currency) i.price i'.price

/-- The booking library refuses both, for the transaction or for the same posting, maybe in other words; or it makes the same of both, in
the other units, and so is then what the accounts hold. -/
inductive ScaledAnswer {L : BookLib} (alike : L.Pos → L.Pos → Prop) (held held' : Str → Option L.Pos) :
    Except BookError (Bookings L.Pos) → Except BookError (Bookings L.Pos) → Prop
  | refused {e e'} : BookError.Alike e e' → ScaledAnswer alike held held' (.error e) (.error e')
  | booked {is is' us us'} : List.Forall₂ (ScaledInterpolated f) is is' →
      (∀ a, Option.Rel alike (heldAfter held us a) (heldAfter held' us' a)) → ScaledAnswer alike held held' (.ok ⟨is, us⟩) (.ok ⟨is', us'⟩)

/-- A directive other than transactions, assertions and prices: there is no amount in it, but for metadata and the values of `custom`. -/
def NoAmount (d : Raw.Directive) : Prop := (∀ t, d.variant ≠ .transaction t) ∧ (∀ b, d.variant ≠ .balance b) ∧ ∀ p, d.variant ≠ .price p

/-- A directive in the other units. Of a transaction, the postings are written so that the booking library books them in the other units,
whatever the accounts hold. The tolerance of an assertion is so many times as large. -/
inductive Rescaled (L : BookLib) (tol tol' : Tolerance) (alike : L.Pos → L.Pos → Prop) : Raw.Directive → Raw.Directive → Prop
  | same {d} (span) : NoAmount d → Rescaled L tol tol' alike d { d with span := span }
  | transaction {d t ps} (span) : d.variant = .transaction t → List.Forall₂ EqualLine t.postings ps →
      (∀ held held' method, (∀ a, Option.Rel alike (held a) (held' a)) →
        ScaledAnswer f alike held held' (L.book d.date t.postings tol held method) (L.book d.date ps tol' held' method)) →
      Rescaled L tol tol' alike d { d with span := span, variant := .transaction { t with postings := ps } }
  | balance {d b b'} (span) : d.variant = .balance b → b'.acc = b.acc → b'.cur = b.cur → ScaledAmount (f b.cur) b.units b'.units →
      tolerance tol'.multiplier b' = |f b.cur| * tolerance tol.multiplier b →
      Rescaled L tol tol' alike d { d with span := span, variant := .balance b' }
  | price {d p u tot} (span) : d.variant = .price p → ScaledAmount (f p.price.cur / f p.cur) p.price.perUnit u →
      Option.Rel (ScaledAmount (f p.price.cur)) p.price.total tot →
      Rescaled L tol tol' alike d { d with span := span, variant := .price { p with price := { p.price with perUnit := u, total := tot } } }

/-- Holdings which are alike are so in the other units, and remain so when amounts are added. -/
structure CountsWith (L : BookLib) (alike : L.Pos → L.Pos → Prop) : Prop where
  empty : alike L.empty L.empty
  units : ∀ p q cur, alike p q → ScaledAmount (f cur) (L.units p cur) (L.units q cur)
  accumulate : ∀ p q u v cur, alike p q → ScaledAmount (f cur) u v → alike (L.accumulate p u cur L.dflt) (L.accumulate q v cur L.dflt)

/-- A cost of units of the currency `cur`. -/
def ScaledCost (cur : Str) (c c' : Booked.Cost) : Prop :=
  c' = { c with perUnit := c'.perUnit, total := c'.total } ∧ ScaledAmount (f c.cur / f cur) c.perUnit c'.perUnit ∧
    ScaledAmount (f c.cur) c.total c'.total

/-- A posting in the other units. -/
def ScaledPosting (p q : Booked.Posting) : Prop :=
  q = { p with units := q.units, cost := q.cost, price := q.price } ∧ ScaledAmount (f p.cur) p.units q.units ∧
    Option.Rel (ScaledCost f p.cur) p.cost q.cost ∧ Option.Rel (ScaledPrice f p.cur) p.price q.price

/-- In the other units. -/
inductive ScaledVariant : Booked.Variant → Booked.Variant → Prop
  | same {v} : (∀ t, v ≠ .transaction t) → (∀ b, v ≠ .balance b) → (∀ p, v ≠ .price p) → ScaledVariant v v
  | transaction {t ps} : List.Forall₂ (ScaledPosting f) t.postings ps → ScaledVariant (.transaction t) (.transaction { t with postings := ps })
  | balance {b raw} : raw.acc = b.raw.acc → raw.cur = b.raw.cur → ScaledAmount (f b.raw.cur) b.raw.units raw.units →
      ScaledVariant (.balance b) (.balance { b with raw := raw })
  | price {p : Raw.PriceDct} {u tot} : ScaledAmount (f p.price.cur / f p.cur) p.price.perUnit u →
      Option.Rel (ScaledAmount (f p.price.cur)) p.price.total tot →
      ScaledVariant (.price p) (.price { p with price := { p.price with perUnit := u, total := tot } })

/-- A directive in the other units. -/
def ScaledBooked (d d' : Booked.Directive) : Prop := d' = { d with variant := d'.variant } ∧ ScaledVariant f d.variant d'.variant

/-- The same reason: an assertion is off by so many times as much. The text of the library and the statement of an account may differ. -/
inductive ScaledReason : Reason → Reason → Prop
  | same {x} : (∀ t u c, x ≠ .accumulated t u c) → ScaledReason x x
  | library (text text') : ScaledReason (.library text) (.library text')
  | libraryPosting (i text text') : ScaledReason (.libraryPosting text i) (.libraryPosting text' i)
  | accumulated (total total' cur) {units units'} : ScaledAmount (f cur) units units' →
      ScaledReason (.accumulated total units cur) (.accumulated total' units' cur)

/-- Reports at the same place, referring to the same directives, for the same reason. -/
structure ScaledReport (x y : IndexedReport) : Prop where
  place : y.idx = x.idx
  related : y.related = x.related
  reason : ScaledReason f x.reason y.reason

/-- The same happens, in the other units. -/
inductive ScaledOutcome : Outcome → Outcome → Prop
  | panic : ScaledOutcome .panic .panic
  | success {out out' w} : List.Forall₂ (ScaledBooked f) out out' → ScaledOutcome (.success out w) (.success out' w)
  | failure {es es' xs ys} : es.Perm xs → es'.Perm ys → List.Forall₂ (ScaledReport f) xs ys → ScaledOutcome (.failure es) (.failure es')

end Spec
end Limabean
