/-
What plugins do to the directives if each result is checked: one plugin after the other works on the whole list, and what it has made is
checked before the next one gets it.
-/
import Verif.Spec.Plugins

namespace Limabean
namespace Spec

open Clj

/-- The list, if each directive carries an error or satisfies the specification. -/
def vetted (valid : Data → Bool) (l : List Data) : Option (List Data) := if l.all (fun d => isErr d || valid d) then some l else none

/-- The plugins work on a list of directives, each on the result of the one before, which is checked. -/
def throughVetted (valid : Data → Bool) (phase : Option Str) : List Plugin → List Data → Option (List Data)
  | [], l => some l
  | p :: ps, l => (through p (provenanceTag p.name phase) l).bind fun a => (vetted valid a).bind (throughVetted valid phase ps)

end Spec
end Limabean
