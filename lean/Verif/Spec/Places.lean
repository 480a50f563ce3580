/-
Ledgers which agree but for the number of decimal places of the amounts of pads, and amounts which are not too large.
-/
import Verif.Pod.BookingLib
import Verif.Pod.Decimal
import Verif.Spec.Ledger

namespace Limabean
namespace Spec

/-- Postings which agree but for the number of decimal places of their units. -/
def PostingNear (p q : Booked.Posting) : Prop :=
  p.units.val = q.units.val ∧ { p with units := Dec.zero } = { q with units := Dec.zero }

/-- Booked variants which agree but for the number of decimal places of the units of postings. -/
def VariantNear : Booked.Variant → Booked.Variant → Prop
  | .transaction t, .transaction u =>
    List.Forall₂ PostingNear t.postings u.postings ∧ { t with postings := [] } = { u with postings := [] }
  | v, w => v = w

/-- Booked directives which agree but for the number of decimal places of the units of postings. -/
structure DirectiveNear (d e : Booked.Directive) : Prop where
  idx : d.idx = e.idx
  date : d.date = e.date
  tags : d.tags = e.tags
  links : d.links = e.links
  metadata : d.metadata = e.metadata
  variant : VariantNear d.variant e.variant

/-- What is posted in a currency, regardless of sign. -/
def turnover (ds : List Booked.Directive) (cur : Str) : ℚ :=
  (((postings ds).filter fun p => p.cur = cur).map fun p => |p.units.val|).sum

/-- Amounts with at most `n` decimal places which are not too large: for each assertion, its amount and all that is posted in its
currency, regardless of sign, add up to a number which can be represented with `n` places. -/
structure Moderate (n : Nat) (multiplier : Option Dec) (ds : List Raw.Directive) (ledger : List Booked.Directive) : Prop where
  places : n ≤ 28
  postings : ∀ p ∈ postings ledger, p.units.s ≤ n
  asserted : ∀ d ∈ ds, ∀ b, d.variant = .balance b →
    b.units.s ≤ n ∧ (turnover ledger b.cur + |b.units.val|) * 10 ^ n < 2 ^ 96
  /-- the tolerance which is inferred for an assertion can be represented -/
  tolerance : ∀ d ∈ ds, ∀ b, d.variant = .balance b → b.tolerance = none →
    b.units.s + (multiplier.getD ⟨5, 1⟩).s ≤ 28 ∧ 2 * (multiplier.getD ⟨5, 1⟩).m.natAbs < 2 ^ 96

/-- What is posted in all currencies together, regardless of sign. -/
def everything (ds : List Booked.Directive) : ℚ := ((postings ds).map fun p => |p.units.val|).sum

/-- Rows of the table of a report which agree but for the number of decimal places of the amounts. -/
def RowNear (x y : DiagRow) : Prop :=
  x.units.val = y.units.val ∧ x.total.val = y.total.val ∧
    { x with units := Dec.zero, total := Dec.zero } = { y with units := Dec.zero, total := Dec.zero }

/-- Reports which agree but for the number of decimal places of the amounts. -/
structure ReportNear (x y : IndexedReport) : Prop where
  idx : x.idx = y.idx
  related : x.related = y.related
  reason : x.reason = y.reason ∨ ∃ t m t' m' c, x.reason = .accumulated t m c ∧ y.reason = .accumulated t' m' c ∧ t.val = t'.val ∧ m.val = m'.val
  annotation : Option.Rel (List.Forall₂ RowNear) x.annotation y.annotation

/-- The library does not look at the number of decimal places of what is held without cost: there is a relation of holdings such that
related holdings have the same units, and lead to the same results. -/
structure PlacesBlind (L : BookLib) (E : L.Pos → L.Pos → Prop) : Prop where
  refl : ∀ p, E p p
  units : ∀ p q, E p q → ∀ c, (L.units p c).val = (L.units q c).val
  accumulate : ∀ p q u v c b, E p q → u.val = v.val → E (L.accumulate p u c b) (L.accumulate q v c b)
  book : ∀ d ps t inv inv' bk, (∀ a, Option.Rel E (inv a) (inv' a)) →
    (∃ x y, L.book d ps t inv bk = .error x ∧ L.book d ps t inv' bk = .error y) ∨
    (∃ r r', L.book d ps t inv bk = .ok r ∧ L.book d ps t inv' bk = .ok r' ∧ r.interpolated = r'.interpolated ∧
      List.Forall₂ (fun x y => x.1 = y.1 ∧ E x.2 y.2) r.updated r'.updated)

/-- The places of what an interpolated posting adds. -/
def LotPlaces (n : Nat) (i : Interpolated) : Prop :=
  match i.cost with
  | some lots => ∀ l ∈ lots, l.units.s ≤ n
  | none => i.units.s ≤ n

/-- What is held has no more decimal places than what was posted. -/
structure CountsPlaces (L : BookLib) : Prop where
  empty : ∀ c, (L.units L.empty c).s = 0
  accumulate : ∀ n p u c b c', (L.units p c').s ≤ n → u.s ≤ n → (L.units (L.accumulate p u c b) c').s ≤ n
  book : ∀ n d ps t inv bk r, L.book d ps t inv bk = .ok r → (∀ a p c, inv a = some p → (L.units p c).s ≤ n) →
    (∀ i ∈ r.interpolated, LotPlaces n i) → ∀ a q, (a, q) ∈ r.updated → ∀ c, (L.units q c).s ≤ n

end Spec
end Limabean
