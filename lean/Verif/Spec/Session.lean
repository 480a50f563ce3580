/-
Specifications about loading beanfiles.
-/
import Verif.Clj.Session
import Verif.Spec.ClientReports

namespace Limabean
namespace Spec

open Clj

mutual
/-- No object within the value has a text as its `date`. -/
def NoDates : Json → Prop
  | .null => True
  | .bool _ => True
  | .num _ => True
  | .str _ => True
  | .arr l => NoDatesAll l
  | .obj l => NoDatesEntries l

/-- The same for a list of values. -/
def NoDatesAll : List Json → Prop
  | [] => True
  | j :: l => NoDates j ∧ NoDatesAll l

/-- The same for the entries of an object. -/
def NoDatesEntries : List (Str × Json) → Prop
  | [] => True
  | (k, j) :: l => (k = str% "date" → ∀ s, j ≠ .str s) ∧ NoDates j ∧ NoDatesEntries l
end

/-- The options of a ledger whose values are texts, numbers and the like, not dates. -/
def OptionsOk (o : LedgerOptions) : Prop := NoDatesEntries o.others

/-- A plugin as the client sees it. -/
def ofPlugin (p : Str × Option Str) : Data :=
  .map [(str% "name", .str p.1), (str% "config", match p.2 with | some c => .str c | none => .nil)]

end Spec
end Limabean
