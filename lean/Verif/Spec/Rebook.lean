/-
What is assumed of the booking library when what it has booked is booked again.
-/
import Verif.Pod.Accumulator
import Verif.Spec.Printed

namespace Limabean
namespace Spec

/-- The same lot apart from its total. -/
def SameLot (l l' : LotCost) : Prop :=
  l.cur = l'.cur ∧ l.units = l'.units ∧ l.date = l'.date ∧ l.perUnit = l'.perUnit ∧ l.label = l'.label ∧ l.merge = l'.merge

/-- The same outcome for a posting, apart from totals. -/
def SameInterpolated (i j : Interpolated) : Prop :=
  i.units = j.units ∧ i.currency = j.currency ∧ BothOrNone (List.Forall₂ SameLot) i.cost j.cost ∧ BothOrNone PriceAlike i.price j.price

/-- A posting which was matched against several lots, as one for each lot. -/
def perLot (i : Interpolated) : List Interpolated :=
  match i.cost with
  | some lots => lots.map fun l => { units := l.units, currency := i.currency, cost := some [l] }
  | none => [i]

/-- Postings booked once, written out with their lots and the interpolated amounts, are booked again to the same effect. -/
def Rebooks (L : BookLib) : Prop :=
  ∀ d ps t inv bk r, L.book d ps t inv bk = .ok r →
    ∃ is, L.book d ((bookedPostings 0 (r.interpolated.zip ps)).map postingWritten) t inv bk = .ok { interpolated := is, updated := r.updated } ∧
      List.Forall₂ SameInterpolated is (r.interpolated.flatMap perLot)

end Spec
end Limabean
