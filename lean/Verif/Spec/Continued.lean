/-
Continuing a ledger from its balances: another ledger in place of what came before.
-/
import Verif.Pod.Accumulator
import Verif.Spec.Output
import Verif.Spec.Parts
import Verif.Spec.Swap

namespace Limabean
namespace Spec

/-- An account was left in the same way: never opened, or opened for the same currencies with the same booking method, and still open or
closed since. -/
inductive LeftAlike : Life → Life → Prop
  | never : LeftAlike .never .never
  | opn (o o' : Raw.Open) : o'.currencies.getD [] = o.currencies.getD [] → o'.booking = o.booking → LeftAlike (.opn o) (.opn o')
  | closed (o o' : Raw.Open) : o'.currencies.getD [] = o.currencies.getD [] → o'.booking = o.booking → LeftAlike (.closed o) (.closed o')

/-- What the accounts hold after a ledger. -/
def holdings (L : BookLib) (o : BookOptions) (ds : List Raw.Directive) (acc : Str) : Option L.Pos :=
  (Tally.run o.bookingMethod o.tolerance 0 (Tally.init L) ds).bind fun r => r.1.held acc

/-- Holdings after a transaction. -/
def heldAfter {L : BookLib} (held : Str → Option L.Pos) (updated : List (Str × L.Pos)) : Str → Option L.Pos :=
  updated.foldl (fun h aq => Function.update h aq.1 (some aq.2)) held

/-- The booking library answers alike: it refuses for the same reason, or it makes the same of the postings. Then the accounts of the
transaction hold what is alike. -/
inductive AnsweredAlike {L : BookLib} (alike : L.Pos → L.Pos → Prop) (ps : List Raw.PostingSpec) (held held' : Str → Option L.Pos) :
    Except BookError (Bookings L.Pos) → Except BookError (Bookings L.Pos) → Prop
  | refused (e) : AnsweredAlike alike ps held held' (.error e) (.error e)
  | booked (is us us') : (∀ p ∈ ps, Option.Rel alike (heldAfter held us p.acc) (heldAfter held' us' p.acc)) →
      AnsweredAlike alike ps held held' (.ok ⟨is, us⟩) (.ok ⟨is, us'⟩)

/-- Holdings which are alike are so to the booking library, as far as the transactions of a ledger are concerned. To transactions without
costs any holdings are alike; else those with the same lots may be, whatever there is besides. -/
structure Carries (L : BookLib) (tol : Tolerance) (alike : L.Pos → L.Pos → Prop) (rest : List Raw.Directive) : Prop where
  empty : alike L.empty L.empty
  accumulate : ∀ p q u v cur, alike p q → u.val = v.val → alike (L.accumulate p u cur L.dflt) (L.accumulate q v cur L.dflt)
  book : ∀ d ∈ rest, ∀ t, d.variant = .transaction t → ∀ held held' method method',
    (∀ p ∈ t.postings, Option.Rel alike (held p.acc) (held' p.acc) ∧ method p.acc = method' p.acc) →
    AnsweredAlike alike t.postings held held' (L.book d.date t.postings tol held method) (L.book d.date t.postings tol held' method')

/-- The ledger `opening` may stand for the ledger `old`, when `rest` follows: it leaves the accounts which are used there in the same way,
with holdings which are alike to the booking library, and it has posted the same to the accounts on which there are assertions. -/
structure StandsFor (L : BookLib) (o : BookOptions) (alike : L.Pos → L.Pos → Prop) (old opening : List Raw.Directive)
    (out out' : List Booked.Directive) (rest : List Raw.Directive) : Prop where
  accounts : ∀ d ∈ rest, ∀ a ∈ accountsOf d, LeftAlike (life old a) (life opening a)
  held : ∀ d ∈ rest, ∀ a ∈ accountsOf d, ∀ p q, holdings L o old a = some p → holdings L o opening a = some q → alike p q
  asserted : ∀ d ∈ rest, ∀ b, d.variant = .balance b → rolledUp out b.acc b.cur = rolledUp out' b.acc b.cur

/-- The numbers of directives of what follows `n` and `n'` directives: of the same directive, or both of some directive before. -/
def Match (n n' k k' : Nat) : Prop := (k < n ∧ k' < n') ∨ ∃ i, k = n + i ∧ k' = n' + i

/-- The same posting, maybe with more or fewer decimals written. -/
def AlikePosting (p q : Booked.Posting) : Prop := q = { p with units := q.units } ∧ q.units.val = p.units.val

/-- The same variant, up to decimals. -/
inductive AlikeVariant : Booked.Variant → Booked.Variant → Prop
  | same (v) : AlikeVariant v v
  | transaction (t ps) : List.Forall₂ AlikePosting t.postings ps → AlikeVariant (.transaction t) (.transaction { t with postings := ps })

/-- The same directive, up to decimals, with the number which it has after `n'` directives instead of `n`. -/
structure AlikeBooked (n n' : Nat) (d d' : Booked.Directive) : Prop where
  idx : ∃ i, d.idx = n + i ∧ d'.idx = n' + i
  date : d'.date = d.date
  tags : d'.tags = d.tags
  links : d'.links = d.links
  metadata : d'.metadata = d.metadata
  variant : AlikeVariant d.variant d'.variant

/-- The same reason, but for the statement of an account. -/
inductive AlikeReason : Reason → Reason → Prop
  | same (r) : AlikeReason r r
  | accumulated (total total' margin margin' cur) : margin'.val = margin.val →
      AlikeReason (.accumulated total margin cur) (.accumulated total' margin' cur)

/-- The same report on a directive after `n'` directives instead of `n`. -/
structure AlikeReport (n n' : Nat) (x x' : IndexedReport) : Prop where
  idx : ∃ i, x.idx.directive = n + i ∧ x'.idx.directive = n' + i
  posting : x'.idx.posting = x.idx.posting
  reason : AlikeReason x.reason x'.reason
  related : Option.Rel (List.Forall₂ fun e e' => Match n n' e.directive e'.directive ∧ e'.posting = e.posting) x.related x'.related

/-- The same happens after the ledgers of `n` and `n'` directives, for which these directives and warnings were returned. -/
inductive SameAfter (n n' : Nat) (out out' : List Booked.Directive) (w w' : List IndexedReport) : Outcome → Outcome → Prop
  | panic : SameAfter n n' out out' w w' .panic .panic
  | success (more more' v v') : List.Forall₂ (AlikeBooked n n') more more' → List.Forall₂ (AlikeReport n n') v v' →
      SameAfter n n' out out' w w' (.success (out ++ more) (w ++ v)) (.success (out' ++ more') (w' ++ v'))
  | failure (es es' xs xs') : es.Perm xs → es'.Perm xs' → List.Forall₂ (AlikeReport n n') xs xs' →
      SameAfter n n' out out' w w' (.failure es) (.failure es')

end Spec
end Limabean
