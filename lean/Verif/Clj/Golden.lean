/-
Golden tests of beanfiles: clj-test/src/limabean/test.clj, clj-test/src/limabean/test/create_golden.clj.

The text of data (`zprint`), the reader of EDN, matching (matcho) and what `show` prints are parameters. Beanfiles, and the files they
include, stay as they are: the server which a new process runs is a function of the path. Not modelled: the lines which are printed,
temporary files, golden directories which are files, failures to write.
-/
import Verif.Clj.App
import Verif.Clj.Print

namespace Limabean
namespace Clj

variable {E : Ext} {L : BookLib}

/-! ### Paths -/

/-- `.getName`: what follows the last slash. -/
def fileName (path : Str) : Str := (path.reverse.takeWhile (· ≠ '/')).reverse

/-- `str/ends-with?` -/
def endsWith (s t : Str) : Bool := t.isSuffixOf s

/-- Which files are tests: clj-test/src/limabean/test.clj:21-24. -/
def isTest (path : Str) : Bool :=
  endsWith (fileName path) (str% ".beancount") && !endsWith (fileName path) (str% ".fyi.beancount")

/-- `io/file` takes a slash away from the end. -/
def asFile (path : Str) : Str := if endsWith path (str% "/") && decide (1 < path.length) then path.dropLast else path

/-- The base path of a test, without its suffix: clj-test/src/limabean/test.clj:26-28. -/
def basePath (path : Str) : Str := asFile (path.take (path.length - (str% ".beancount").length))

/-- The golden directory of a test: clj-test/src/limabean/test.clj:30. -/
def goldenPath (path : Str) : Str := basePath path ++ str% ".golden"

/-! ### Files -/

/-- A directory: the texts of its files by name. -/
abbrev Dir := Str → Option Str

/-- A directory without files. -/
def Dir.empty : Dir := fun _ => none

/-- Writing a file. -/
def Dir.put (d : Dir) (name text : Str) : Dir := fun x => if x = name then some text else d x

/-- The files as the tests see them. -/
structure Disk where
  /-- the paths of files and directories below the root, in the order of `file-seq`; those of the files which are written to golden
  directories need not be listed, they are no tests (`C92_written`) -/
  paths : List Str
  /-- the golden directories which exist -/
  golden : Str → Option Dir

/-- The file in a directory, if there is one. -/
def Disk.file (D : Disk) (dir name : Str) : Option Str := (D.golden dir).bind fun d => d name

/-- The directory becomes this one. -/
def Disk.set (D : Disk) (dir : Str) (d : Dir) : Disk := { D with golden := fun x => if x = dir then some d else D.golden x }

/-- A test. -/
structure GoldenTest where
  beanfile : Str
  golden : Str
deriving DecidableEq, Repr

/-- `find-golden-tests`: clj-test/src/limabean/test.clj:16-36. -/
def findGolden (D : Disk) (ignoreDirs : Bool) : List GoldenTest :=
  ((D.paths.filter isTest).map fun p => { beanfile := p, golden := goldenPath p }).filter fun t =>
    ignoreDirs || (D.golden t.golden).isSome

/-! ### What surrounds the tests -/

/-- The reports which are compared. -/
inductive Query
  | inventory
  | rollup
  | journal
deriving DecidableEq, Repr

/-- The name of a report, which is the name of its file. -/
def Query.name : Query → Str
  | .inventory => str% "inventory"
  | .rollup => str% "rollup"
  | .journal => str% "journal"

/-- The expression: clj-test/src/limabean/test.clj:80-82. -/
def Query.expr : Query → Str
  | .rollup => str% "(show (rollup (inventory)))"
  | q => str% "(show (" ++ q.name ++ str% "))"

/-- What surrounds the tests. -/
structure TestHost (E : Ext) (L : BookLib) where
  host : Host E L
  /-- the text which `zprint` writes -/
  write : Data → Str
  /-- `limabean-edn/read-string`; `none` if reading throws -/
  readEdn : Str → Option Data
  /-- the entry `:error` as data -/
  errorData : LoadError → Data
  /-- `matcho/assert` with the expected data, strict everywhere, and the actual -/
  fits : Data → Data → Bool
  /-- what showing the report on these directives with this registry prints, and whether it ends without an exception -/
  shown : Query → List Data → Option Data → List Str × Bool

/-- `load-beanfile` of a path; `none` if it throws. -/
def TestHost.load (H : TestHost E L) (path : Str) : Option (LoadedBeans E) :=
  (H.host.server path).bind fun s => match loadBeanfile H.host.front s with
    | .ok m => some m
    | .error _ => none

/-! ### Creating golden files -/

/-- An output: clj-test/src/limabean/test/create_golden.clj:16-40. -/
structure Output (E : Ext) where
  filename : Str
  /-- the text written, and whether it ends without an exception -/
  text : LoadedBeans E → Str × Bool
  /-- the name and the text of the file for information -/
  fyi : Option (Str × (LoadedBeans E → Str)) := none
  /-- whether it is to be written, given whether it exists -/
  required : LoadedBeans E → Bool → Bool

/-- The entry `:directives` or `:raw-xf-directives` as data. -/
def ofDirectives : Option (List Data) → Data
  | some l => .vec l
  | none => .nil

/-- The text of a report: clj-test/src/limabean/test/create_golden.clj:31-40. -/
def TestHost.report (H : TestHost E L) (q : Query) (m : LoadedBeans E) : Str × Bool :=
  let r := H.shown q (m.directives.getD []) m.registry
  (r.1.flatten, r.2)

/-- The outputs: clj-test/src/limabean/test/create_golden.clj:16-40. -/
def TestHost.outputs (H : TestHost E L) : List (Output E) :=
  [{ filename := str% "directives.edn", text := fun m => (H.write (ofDirectives m.directives), true),
     fyi := some (str% "directives.fyi.beancount", fun m => ledgerText H.host.front.txt (m.directives.getD [])),
     required := fun m exist => m.bookedXfDirectives.isSome || exist },
   { filename := str% "raw-xf-directives.edn", text := fun m => (H.write (ofDirectives m.rawXfDirectives), true),
     fyi := some (str% "raw-xf-directives.fyi.beancount", fun m => ledgerText H.host.front.txt (m.rawXfDirectives.getD [])),
     required := fun m exist => m.rawXfDirectives.isSome || exist },
   { filename := Query.inventory.name, text := H.report .inventory, required := fun _ exist => exist },
   { filename := Query.rollup.name, text := H.report .rollup, required := fun _ exist => exist },
   { filename := Query.journal.name, text := H.report .journal, required := fun _ exist => exist }]

/-- Writing outputs to a directory; `false` if one throws, after what has been written:
clj-test/src/limabean/test/create_golden.clj:67-87. -/
def writeOutputs (m : LoadedBeans E) : List (Output E) → Dir → Dir × Bool
  | [], d => (d, true)
  | o :: rest, d =>
    if o.required m (d o.filename).isSome then
      let d := d.put o.filename (o.text m).1
      if (o.text m).2 then writeOutputs m rest (match o.fyi with | some f => d.put f.1 (f.2 m) | none => d)
      else (d, false)
    else writeOutputs m rest d

/-- Whether the entry `:error` can be written and compared: the reports of a failed booking are a lazy sequence, and making it may throw. -/
def LoadError.written : LoadError → Bool
  | .booking none => false
  | _ => true

/-- The golden directory of what was loaded; how much of an error has been written before an exception does not matter: clj-test/src/limabean/test/create_golden.clj:66-88. -/
def TestHost.updateDir (H : TestHost E L) (m : LoadedBeans E) (d : Dir) : Dir × Bool :=
  match m.error with
  | none => writeOutputs m H.outputs d
  | some e => (d.put (str% "error.edn") (H.write (H.errorData e)), e.written)

/-- One test: clj-test/src/limabean/test/create_golden.clj:62-88. The directory is made unless it exists. -/
def TestHost.update (H : TestHost E L) (t : GoldenTest) (D : Disk) : Disk × Bool :=
  match H.load t.beanfile with
  | none => (D, false)
  | some m =>
    let r := H.updateDir m ((D.golden t.golden).getD .empty)
    (D.set t.golden r.1, r.2)

/-- The tests one after the other, up to an exception. -/
def TestHost.updateEach (H : TestHost E L) : List GoldenTest → Disk → Disk × Bool
  | [], D => (D, true)
  | t :: rest, D => match H.update t D with
    | (D, true) => H.updateEach rest D
    | (D, false) => (D, false)

/-- `update-all`: clj-test/src/limabean/test/create_golden.clj:56-89. -/
def TestHost.updateAll (H : TestHost E L) (D : Disk) : Disk × Bool := H.updateEach (findGolden D true) D

/-! ### The tests -/

/-- The entries which are compared: clj-test/src/limabean/test.clj:101. -/
inductive Key
  | rawXf
  | directives
  | error
deriving DecidableEq, Repr

/-- The file of an entry: clj-test/src/limabean/test.clj:102. -/
def Key.file : Key → Str
  | .rawXf => str% "raw-xf-directives.edn"
  | .directives => str% "directives.edn"
  | .error => str% "error.edn"

/-- The entry of what was loaded. -/
def TestHost.entry (H : TestHost E L) (m : Option (LoadedBeans E)) : Key → Data
  | .rawXf => ofDirectives (m.bind fun m => m.rawXfDirectives)
  | .directives => ofDirectives (m.bind fun m => m.directives)
  | .error => match m.bind fun m => m.error with
    | some e => H.errorData e
    | none => .nil

/-- One test of `api-tests` passes: clj-test/src/limabean/test.clj:91-111. An exception while loading is caught, one while reading is
not. -/
def TestHost.apiPasses (H : TestHost E L) (D : Disk) (t : GoldenTest) : Bool :=
  [Key.rawXf, .directives, .error].all fun k => match D.file t.golden k.file with
    | none => true
    | some text => match H.readEdn text with
      | none => false
      | some expected => H.fits expected (H.entry (H.load t.beanfile) k) && (k ≠ .error || canMatch (H.load t.beanfile))
where canMatch (m : Option (LoadedBeans E)) : Bool := ((m.bind fun m => m.error).map LoadError.written).getD true

/-- One test of `app-tests` passes: clj-test/src/limabean/test.clj:71-89. After an exception the program exits. -/
def TestHost.appPasses (H : TestHost E L) (D : Disk) (t : GoldenTest) : Bool :=
  [Query.inventory, .rollup, .journal].all fun q => match D.file t.golden q.name with
    | none => true
    | some text =>
      let r := tryEval H.host t.beanfile q.expr
      r.status == 0 && r.out.flatten == text

/-- All tests pass: `app-tests` and `api-tests`. -/
def TestHost.testsPass (H : TestHost E L) (D : Disk) : Bool :=
  (findGolden D false).all fun t => H.appPasses D t && H.apiPasses D t

end Clj
end Limabean
