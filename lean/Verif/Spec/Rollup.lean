/-
Notions for rollups: well-formed account names, units of an account, units of an account and everything below it.
-/
import Verif.Spec.Ledger
import Verif.Spec.Reports
import Verif.Clj.Inventory

namespace Limabean
namespace Spec

/-- An account name without empty components. -/
def WellNamed (a : Str) : Prop := ∀ c ∈ components a, c ≠ []

instance (a : Str) : Decidable (WellNamed a) := inferInstanceAs (Decidable (∀ c ∈ _, _))

/-- The units of an account in a currency. -/
def ownUnits (inv : AMap Str (List Clj.Position)) (cur acc : Str) : ℚ :=
  totalUnits Clj.Position.units ((inv.get acc).getD []) (fun p => p.cur = cur)

/-- The units of an account and of all accounts below it in a currency. -/
def subtotal (inv : AMap Str (List Clj.Position)) (cur acc : Str) : ℚ :=
  ((inv.filter fun x => Below acc x.1).map fun x => totalUnits Clj.Position.units x.2 (fun p => p.cur = cur)).sum

/-- The units of all accounts in a currency. -/
def grandTotal (inv : AMap Str (List Clj.Position)) (cur : Str) : ℚ :=
  (inv.map fun x => totalUnits Clj.Position.units x.2 (fun p => p.cur = cur)).sum

end Spec
end Limabean
