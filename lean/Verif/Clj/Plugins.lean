/-
Running plugins: clj/src/limabean/adapter/plugins.clj.

A plugin is a transducer: for each directive it receives it passes on any number of objects, and some more at the end. What it does is a
function of the directives it has received so far. Objects have an identity, here a number (`tok`): a plugin passes on an object it has
received (`old`) or one it has made (`new`). `System/identityHashCode` is a parameter `hash` on identities. `none` stands for an
exception; what is in it is not looked at (see `printErrors`). Not modelled: plugins which stop early (`reduced`), plugins which look at the identity of objects, plugins with side effects.
-/
import Verif.Clj.Data

namespace Limabean
namespace Clj

/-- An object which a plugin passes on. -/
inductive Out
  /-- the object received as number `i`, counting from 0 -/
  | old (i : Nat)
  /-- a new object -/
  | new (d : Data)
  /-- instead, the plugin throws an exception with this message -/
  | throws (message : Str)

/-- A resolved plugin. -/
structure Plugin where
  name : Str
  /-- passed on when the last directive of the list is received, after the others -/
  step : List Data → List Out
  /-- passed on at the end -/
  finish : List Data → List Out

/-- An object. -/
structure Obj where
  tok : Nat
  data : Data

/-- The state while plugins run. -/
structure World where
  /-- the next identity -/
  next : Nat
  /-- `known-directives` -/
  known : List Nat
  /-- what the plugin at each position has received -/
  received : Nat → List Obj
  /-- the result so far -/
  out : List Obj

/-- `(conj v x)` on vectors and sets; on other collections it is not modelled. -/
def conj (v x : Data) : Option Data :=
  match v with
  | .vec l => some (.vec (l ++ [x]))
  | .set l => some (.set (l ++ [x]))
  | _ => none

/-- `(contains? coll :k)`: on vectors it looks for an index, so a keyword is never found. -/
def containsKw (v : Data) (k : Str) : Bool :=
  match v with
  | .set l => l.any fun x => match x with | .kw k' => k' == k | _ => false
  | .map l => (AMap.get l k).isSome
  | _ => false

/-- `provenance-tagf`: clj/src/limabean/adapter/plugins.clj:72-81. -/
def provenanceTag (name : Str) (phase : Option Str) (d : Data) : Option Data := do
  let existing := (d.get (str% "provenance")).or (.vec [])
  let v ← match phase with
    | some k => if containsKw existing k then some existing else conj existing (.kw k)
    | none => some existing
  let v ← conj v (.str name)
  return d.assoc (str% "provenance") v

/-- The step of `tag-and-validate-unseen` with a tag, up to calling `rf`: clj/src/limabean/adapter/plugins.clj:60-70. The tagged directive is a
new object. -/
def tagUnseen (hash : Nat → Nat) (valid : Data → Bool) (tag : Data → Option Data) (w : World) (o : Obj) : Option (World × Obj) :=
  if (o.data.get (str% "err")).truthy || w.known.contains (hash o.tok) then some (w, o)
  else match tag o.data with
    | none => none
    | some d =>
      if valid d then some ({ w with next := w.next + 1, known := hash w.next :: w.known }, { tok := w.next, data := d }) else none

/-- The step of `tag-and-validate-unseen` with `identity`: clj/src/limabean/adapter/plugins.clj:60-70. -/
def meetUnseen (hash : Nat → Nat) (valid : Data → Bool) (w : World) (o : Obj) : Option World :=
  if (o.data.get (str% "err")).truthy || w.known.contains (hash o.tok) then some w
  else if valid o.data then some { w with known := hash o.tok :: w.known } else none

/-- The object which a plugin passes on, with the world after making it if it is new. A plugin cannot pass on what it has not received. -/
def outObj (got : List Obj) (w : World) : Out → Option (World × Obj)
  | .old i => (got[i]?).map fun o => (w, o)
  | .new d => some ({ w with next := w.next + 1 }, { tok := w.next, data := d })
  | .throws _ => none

/-- A plugin passes on objects: each is tagged unless known, and given to what follows. -/
def feed (hash : Nat → Nat) (valid : Data → Bool) (tag : Data → Option Data) (got : List Obj) (sink : World → Obj → Option World) :
    List Out → World → Option World
  | [], w => some w
  | x :: xs, w => do
    let (w, o) ← outObj got w x
    let (w, o) ← tagUnseen hash valid tag w o
    let w ← sink w o
    feed hash valid tag got sink xs w

/-- The plugin at position `n` receives an object. -/
def World.receive (w : World) (n : Nat) (o : Obj) : World := { w with received := Function.update w.received n (w.received n ++ [o]) }

/-- The step of the composed transducers, from the plugin at position `n` on: `compose-and-wrap-resolved-plugins`,
clj/src/limabean/adapter/plugins.clj:83-96, and `into []`, 107-113. -/
def push (hash : Nat → Nat) (valid : Data → Bool) (phase : Option Str) : Nat → List Plugin → World → Obj → Option World
  | _, [], w, o => some { w with out := w.out ++ [o] }
  | n, p :: ps, w, o =>
    feed hash valid (provenanceTag p.name phase) ((w.receive n o).received n) (push hash valid phase (n + 1) ps)
      (p.step (((w.receive n o).received n).map Obj.data)) (w.receive n o)

/-- The completion of the composed transducers, from the plugin at position `n` on. -/
def complete (hash : Nat → Nat) (valid : Data → Bool) (phase : Option Str) : Nat → List Plugin → World → Option World
  | _, [], w => some w
  | n, p :: ps, w => do
    let w ← feed hash valid (provenanceTag p.name phase) (w.received n) (push hash valid phase (n + 1) ps)
      (p.finish ((w.received n).map Obj.data)) w
    complete hash valid phase (n + 1) ps w

/-- The reduction over the directives. -/
def pushAll (hash : Nat → Nat) (valid : Data → Bool) (phase : Option Str) (ps : List Plugin) : List Obj → World → Option World
  | [], w => some w
  | o :: os, w => do
    let w ← meetUnseen hash valid w o
    let w ← push hash valid phase 0 ps w o
    pushAll hash valid phase ps os w

/-- `run-plugins-of-kind`: clj/src/limabean/adapter/plugins.clj:103-113. `next` is an identity not yet given to an object. -/
def runPlugins (hash : Nat → Nat) (valid : Data → Bool) (phase : Option Str) (ps : List Plugin) (next : Nat) (ds : List Obj) :
    Option (List Obj) := do
  let w ← pushAll hash valid phase ps ds { next := next, known := [], received := fun _ => [], out := [] }
  let w ← complete hash valid phase 0 ps w
  return w.out

end Clj
end Limabean
