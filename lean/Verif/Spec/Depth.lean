/-
How deep data is nested.
-/
import Verif.Clj.Data

namespace Limabean
namespace Spec
open Clj

mutual
/-- The number of collections around the innermost element. -/
def levels : Data → Nat
  | .map l => levelsEntries l + 1
  | .vec l => levelsAll l + 1
  | .set l => levelsAll l + 1
  | _ => 0

/-- The depth of the deepest element. -/
def levelsAll : List Data → Nat
  | [] => 0
  | x :: l => max (levels x) (levelsAll l)

/-- The depth of the deepest value. -/
def levelsEntries : List (Str × Data) → Nat
  | [] => 0
  | (_, x) :: l => max (levels x) (levelsEntries l)
end

/-- Directives which the client may send: written as JSON in a request they are not nested deeper than `serde_json` reads
(<https://docs.rs/serde_json>: 128 levels, of which the request and the list take one each). -/
def NotTooDeep (xs : List Data) : Prop :=
  ∀ x ∈ xs, levels x < 126

end Spec
end Limabean
