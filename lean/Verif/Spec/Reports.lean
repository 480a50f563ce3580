/-
Notions for the reports of the front end: sums of units, equality of costs.
-/
import Verif.Pod.Types

namespace Limabean
namespace Spec

/-- The sum of the units of the selected elements of a list. -/
def totalUnits {α : Type} (units : α → Dec) (l : List α) (sel : α → Prop) [DecidablePred sel] : ℚ :=
  ((l.filter fun a => sel a).map fun a => (units a).val).sum

/-- The same cost, as numbers; or both without cost. The total of a cost is not part of its identity: it is the cost per
unit times the units of the posting which had it. -/
def SameCost : Option Booked.Cost → Option Booked.Cost → Prop
  | none, none => True
  | some c, some d => c.date = d.date ∧ c.cur = d.cur ∧ c.perUnit.val = d.perUnit.val ∧ c.label = d.label ∧ c.merge = d.merge
  | _, _ => False

instance (c d : Option Booked.Cost) : Decidable (SameCost c d) := by
  unfold SameCost
  split <;> infer_instance

/-- An earlier date. -/
def DateLt (a b : Date) : Prop := a.y < b.y ∨ a.y = b.y ∧ (a.m < b.m ∨ a.m = b.m ∧ a.d < b.d)

instance (a b : Date) : Decidable (DateLt a b) := by unfold DateLt; infer_instance

/-- The order of costs: first no cost, then by date, currency, cost per unit, label (none first) and merge flag. Strings are
ordered lexicographically. -/
def CostLt : Option Booked.Cost → Option Booked.Cost → Prop
  | none, some _ => True
  | some c, some d =>
    DateLt c.date d.date ∨ c.date = d.date ∧ (c.cur < d.cur ∨ c.cur = d.cur ∧ (c.perUnit.val < d.perUnit.val ∨
      c.perUnit.val = d.perUnit.val ∧ ((c.label = none ∧ d.label ≠ none ∨ ∃ x ∈ c.label, ∃ y ∈ d.label, x < y) ∨
        c.label = d.label ∧ c.merge = false ∧ d.merge = true)))
  | _, none => False

/-- On the account no cost per unit occurs both with and without decimal places, as 10 and 10.00. -/
def UniformCosts (ps : List Booked.Posting) (acc : Str) : Prop :=
  ∀ p ∈ ps, ∀ q ∈ ps, p.acc = acc → q.acc = acc → ∀ c ∈ p.cost, ∀ d ∈ q.cost,
    c.perUnit.val = d.perUnit.val → (c.perUnit.s = 0 ↔ d.perUnit.s = 0)

end Spec
end Limabean
