/-
Resolving plugins: clj/src/limabean/adapter/plugins.clj:6-48, clj/src/limabean/adapter/edn.clj.

Namespaces, the functions in them and the reader are parameters. An exception is its message (`.getMessage`, empty if it has none).
Not modelled: the exception which is kept beside the message; errors which are not exceptions, which nothing here catches.
-/
import Verif.Clj.Loader

namespace Limabean
namespace Clj

/-- A function which makes a plugin out of configuration and options; it may return `nil`, or throw. -/
abbrev PluginFn := Data → Data → Except Str (Option Plugin)

/-- What is found in a namespace. -/
structure Namespace where
  /-- `raw-xf` -/
  raw : Option PluginFn
  /-- `booked-xf` -/
  booked : Option PluginFn

/-- What plugins are resolved in. -/
structure Library where
  /-- `require`; `none` if it throws -/
  find : Str → Option Namespace
  /-- the first value in a text and the rest of the text, as `edn/read-string` reads it -/
  read : Str → Except Str (Data × Str)

/-- `limabean-edn/read-string`: clj/src/limabean/adapter/edn.clj:9-12. It reads `nil` as `nil`, and leaves the rest of the text. -/
def Library.readString (N : Library) : Data → Except Str Data
  | .str s => (N.read s).map Prod.fst
  | _ => .ok .nil

/-- `resolve-xfs`: clj/src/limabean/adapter/plugins.clj:6-22. -/
def Library.resolveXfs (N : Library) (name : Str) : Except Str Namespace :=
  match N.find (name.map fun c => if c = '_' then '-' else c) with
  | none => .error (str% "could not load namespace for plugin")
  | some ns =>
    if ns.raw.isSome || ns.booked.isSome then .ok ns
    else .error (str% "Failed to find either booked-xf or raw-xf in plugin")

/-- A function of the namespace is called if it is there. -/
def callXf (f : Option PluginFn) (config options : Data) : Except Str (Option Plugin) :=
  match f with
  | none => .ok none
  | some f => f config options

/-- `resolve-xfs-with-config'`: clj/src/limabean/adapter/plugins.clj:24-36. `booked-xf` is called first. -/
def Library.resolve (N : Library) (p options : Data) : Option Plugin × Option Plugin × Option Str :=
  match N.resolveXfs (nameStr (p.get (str% "name"))) with
  | .error e => (none, none, some e)
  | .ok ns =>
    let r : Except Str (Option Plugin × Option Plugin) := do
      let c ← N.readString (p.get (str% "config"))
      let booked ← callXf ns.booked c options
      let raw ← callXf ns.raw c options
      pure (raw, booked)
    match r with
    | .error e => (none, none, some (str% "Error resolving config: " ++ e))
    | .ok (raw, booked) => (raw, booked, none)

end Clj
end Limabean
