/-
What plugins do to the directives, without identities: one plugin after the other works on the whole list.
-/
import Verif.Clj.Plugins

namespace Limabean
namespace Spec

open Clj

/-- The directive carries an error. -/
def isErr (d : Data) : Bool := (d.get (str% "err")).truthy

/-- What becomes of an object which a plugin passes on: one it has received stays as it is, a new one is tagged unless it carries an
error. `none` if the plugin throws instead. -/
def passOn (tag : Data → Option Data) (got : List Data) : Out → Option Data
  | .old i => got[i]?
  | .new d => if isErr d then some d else tag d
  | .throws _ => none

/-- What a plugin which has received `got` passes on while it receives the directives of a list. -/
def steps (p : Plugin) (tag : Data → Option Data) : List Data → List Data → Option (List Data)
  | _, [] => some []
  | got, d :: l => do
    let a ← Json.all (passOn tag (got ++ [d])) (p.step (got ++ [d]))
    let b ← steps p tag (got ++ [d]) l
    return a ++ b

/-- A plugin works on a list of directives. -/
def through (p : Plugin) (tag : Data → Option Data) (l : List Data) : Option (List Data) := do
  let a ← steps p tag [] l
  let b ← Json.all (passOn tag l) (p.finish l)
  return a ++ b

/-- The plugins work on a list of directives, each on the result of the one before. -/
def throughAll (phase : Option Str) : List Plugin → List Data → Option (List Data)
  | [], l => some l
  | p :: ps, l => (through p (provenanceTag p.name phase) l).bind (throughAll phase ps)

end Spec
end Limabean
