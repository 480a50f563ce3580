/-
Periods of time, and what accounts hold.
-/
import Verif.Spec.Reports
import Verif.Clj.Inventory
import Verif.Clj.Filters

namespace Limabean
namespace Spec

/-- The units of a currency with a certain cost, or without cost, on an account. -/
def holding (inv : AMap Str (List Clj.Position)) (acc cur : Str) (cost : Option Booked.Cost) : ℚ :=
  totalUnits Clj.Position.units ((inv.get acc).getD []) (fun p => p.cur = cur ∧ SameCost p.cost cost)

/-- What the filter `f` selects is selected by either `g` or `h`, and not by both. -/
def Splits (f g h : Clj.Filter) : Prop := ∀ x, (f x = true ↔ g x = true ∨ h x = true) ∧ ¬ (g x = true ∧ h x = true)

/-- The dates do not decrease. -/
def Ascending (l : List Date) : Prop := l.Pairwise fun x y => ¬ DateLt y x

instance (l : List Date) : Decidable (Ascending l) := inferInstanceAs (Decidable (l.Pairwise _))

/-- The periods between dates, each from one date to before the next. -/
def periods (l : List Date) : List (Date × Date) := l.zip l.tail

/-- In the year which ends with March of the following one. -/
def InFinancialYear (y : Nat) (d : Date) : Prop := d.y = y ∧ 4 ≤ d.m ∨ d.y = y + 1 ∧ d.m < 4

end Spec
end Limabean
