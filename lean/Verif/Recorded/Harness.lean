/-
Recorded output: the model is run on the ledgers in /repo/test-cases, and what it gives is compared with the golden files recorded
there by the project. These are tests of the model, not proofs of properties: they show that the definitions which the theorems are
about give what the program gave.

What a test leaves out is what the model leaves out: the text of a ledger is parsed by hand into the directives below, in the form in
which the front end receives them; the interpolation and booking of single transactions by the library is either that of the small
library in Pod/ToyLib.lean or replayed from the recorded output, as each module says. Everything else is the model: the server's requests, the
order of directives, the accounts, pads, balances and inventories, what is sent and received, plugins, spans of generated directives,
the merging of raw and booked directives, reports. Tables are compared word by word.
-/
import Verif.Clj.Golden
import Verif.Clj.Show
import Verif.Clj.Beans
import Verif.Clj.Loader
import Verif.Clj.TestPlugins
import Verif.Clj.AutoPlugin
import Verif.Clj.Resolution
import Verif.Clj.Valid
import Verif.Server.ToyExt
import Verif.Pod.ToyLib

namespace Limabean
namespace Recorded
open Clj

/-! ### Comparison -/

/-- Equality of data, up to the order of maps and sets; the number bounds the depth. -/
def same : Nat → Data → Data → Bool
  | n + 1, .map l, .map l' => l.length == l'.length && l.all fun p => match l'.find? fun q => q.1 == p.1 with
    | some q => same n p.2 q.2
    | none => false
  | n + 1, .vec l, .vec l' => l.length == l'.length && (l.zip l').all fun p => same n p.1 p.2
  | n + 1, .set l, .set l' => l.length == l'.length && l.all fun x => l'.any fun y => same n x y
  | _ + 1, .nil, .nil => true
  | _ + 1, .bool b, .bool b' => b == b'
  | _ + 1, .num d, .num d' => d.m == d'.m && d.s == d'.s
  | _ + 1, .str s, .str s' => s == s'
  | _ + 1, .kw s, .kw s' => s == s'
  | _ + 1, .date d, .date d' => d.y == d'.y && d.m == d'.m && d.d == d'.d
  | _, _, _ => false

/-- The words of a text. -/
def words (s : Str) : List Str :=
  (s.foldr (fun c r => if c = ' ' || c = '\n' then [] :: r else match r with
    | w :: r => (c :: w) :: r
    | [] => [[c]]) [[]]).filter fun w => !w.isEmpty

/-- The words of a cell; the number bounds the depth. -/
def cellWords : Nat → Cell → List Str
  | n + 1, .stack cs => cs.flatMap (cellWords n)
  | n + 1, .row cs _ => cs.flatMap (cellWords n)
  | _ + 1, .aligned s => words s
  | _ + 1, .anchored s _ => [s]
  | _, _ => []

/-! ### What surrounds the model -/

/-- Sources by name, with the length of what they hold; the beanfile is number 0. -/
def sources : Ext :=
  { Toy.ext with
    Sources := List (Str × Nat)
    create := fun s n c =>
      match s.findIdx? fun x => x.1 == n with
      | some i =>
        let k := ((s[i]?).map Prod.snd).getD 0
        (s.set i (n, k + c.length), ⟨i + 1, k, k + c.length⟩)
      | none => (s ++ [(n, c.length)], ⟨s.length + 1, 0, c.length⟩)
    resolve := fun _ _ => none
    writeReport := fun _ _ _ => none }

/-- The library, with recorded results for the transactions whose postings have the given spans. -/
def replay (table : List (List (Option Span) × List Interpolated)) : BookLib :=
  { Toy.lib with
    book := fun date ps tol inv bk =>
      match table.find? fun e => e.1 == ps.map fun p => p.span with
      | some e => .ok
          { interpolated := e.2
            updated := (ps.map fun p => p.acc).dedup.map fun a => (a, Toy.applyAll (bk a) a ((inv a).getD []) ps e.2) }
      | none => Toy.bookAll date ps tol inv bk }

/-- A map of strings out of data. -/
def entries : Data → List (Str × Data)
  | .map l => l
  | _ => []

/-- The plugins which the test cases use, and the two configurations which occur in them. -/
def plugins : Library where
  find n :=
    if n = str% "limabean.test.plugins.identity" then
      some { raw := some fun _ _ => .ok (some identityPlugin), booked := some fun _ _ => .ok (some identityPlugin) }
    else if n = str% "limabean.test.plugins.set-narration" then
      some { raw := some fun c _ => .ok (some (narrationPlugin (match c.get (str% "narration") with
               | .str s => s
               | _ => str% "unspecified in config"))), booked := none }
    else if n = str% "limabean.test.plugins.set-metadata" then
      some { raw := some fun c _ => .ok (some (metadataPlugin ((entries c).map fun p => (p.1, entries p.2)))), booked := none }
    else if n = str% "beancount.plugins.auto-accounts" then some { raw := some fun _ _ => .ok (some autoPlugin), booked := none }
    else none
  read s :=
    if s = str% "{:narration \"Plugins rule ok!\"}" then .ok (.map [(str% "narration", .str (str% "Plugins rule ok!"))], [])
    else if s = str% "{:open {:opened-with {:string \"can opener\"}} :close {:finished {:bool true}}}" then
      .ok (.map [(str% "open", .map [(str% "opened-with", .map [(str% "string", .str (str% "can opener"))])]),
        (str% "close", .map [(str% "finished", .map [(str% "bool", .bool true)])])], [])
    else .error s

/-- The front end. -/
def front (L : BookLib) : Front sources L where
  orders := fun _ => id
  ord := id
  ordm := id
  txt := fun _ => []
  texts := texts fun _ => []
  hash := id
  valid := validDct
  resolve := plugins.resolve
  registry := fun ds o => some (registryOf id ds o)

/-! ### A test case -/

/-- What is loaded from a ledger which parses to these directives, plugins and tolerances. -/
def loaded (L : BookLib) (tol : Tolerance) (ps : List (Str × Option Str)) (ds : List Data) : Option (LoadedBeans sources) :=
  (Json.all Wire.decDirective (ds.map (toJson id))).bind fun raws =>
    match loadBeanfile (front L)
        (.ready ([] : List (Str × Nat)) (.ok { directives := raws, options := { Toy.options with tolerance := tol }, plugins := ps })) with
    | .error _ => none
    | .ok m => if m.error.isSome then none else some m

/-- The recorded `directives.edn`. -/
def directivesAre (m : Option (LoadedBeans sources)) (golden : List Data) : Bool :=
  match m.bind fun m => m.directives with
  | some ds => same 20 (.vec ds) (.vec golden)
  | none => false

/-- The recorded `raw-xf-directives.edn`. -/
def rawAre (m : Option (LoadedBeans sources)) (golden : List Data) : Bool :=
  match m.bind fun m => m.rawXfDirectives with
  | some ds => same 20 (.vec ds) (.vec golden)
  | none => false

/-- The text which is recorded beside directives. -/
def textIs (ds : List Data) (golden : Str) : Bool := ledgerText (fun _ => []) ds == golden

/-- The inventory, as the command for it builds it. -/
def inventoryOf (m : LoadedBeans sources) : Option (AMap Str (List Position)) :=
  (Json.all accountPosition (selectedMaps [] (m.directives.getD []))).bind fun ps =>
    buildInventory ps fun acc => methodOf (accBookingOf (m.registry.getD .nil) acc)

/-- The recorded `inventory`. -/
def inventoryIs (m : Option (LoadedBeans sources)) (golden : Str) : Bool :=
  ((m.bind inventoryOf).map fun i => cellWords 20 (inventoryCell id i)) == some (words golden)

/-- The recorded `rollup`. -/
def rollupIs (m : Option (LoadedBeans sources)) (golden : Str) : Bool :=
  (((m.bind inventoryOf).bind (rollup id)).map fun i => cellWords 20 (rollupCell id i)) == some (words golden)

/-- The words of an entry of the journal, in the order of its columns. -/
def entryWords (e : Data × List Position) : List Str :=
  let w (k : Str) : List Str := match e.1.get k with
    | .str s => words s
    | .nil => []
    | x => [javaStr (fun _ => []) x]
  w (str% "date") ++ w (str% "acc") ++ w (str% "payee") ++ w (str% "narration") ++ w (str% "flag") ++ w (str% "units") ++ w (str% "cur") ++
    cellWords 20 (positionsCell e.2)

/-- The recorded `journal`. -/
def journalIs (m : Option (LoadedBeans sources)) (golden : Str) : Bool :=
  (m.bind fun m => (withBalOf { rule := .append } (selectedMaps [] (m.directives.getD []))).map fun j => j.flatMap entryWords) ==
    some (words golden)

end Recorded
end Limabean
