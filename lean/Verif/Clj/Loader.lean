/-
Loading a beanfile: clj/src/limabean/adapter/loader.clj, clj/src/limabean/macros.clj.

Not modelled: dumping directives for debugging; the type metadata of directives.
-/
import Verif.Clj.Pod

namespace Limabean
namespace Clj

/-- A plugin with its resolution: `resolve-xfs-with-config`, clj/src/limabean/adapter/plugins.clj:38-44. -/
structure Resolved where
  /-- `:name` -/
  name : Data
  /-- `:raw-xf` -/
  raw : Option Plugin
  /-- `:booked-xf` -/
  booked : Option Plugin
  /-- the message in `:err` -/
  err : Option Str

/-- The entry `:error`. -/
inductive LoadError
  /-- `[:error :plugins]` -/
  | plugins (l : List Resolved)
  /-- `[:error :parser :spanned-reports]` -/
  | parser (reports : Data)
  /-- `[:error :raw-plugins :dct-errors]`, or `:booked-plugins` -/
  | dctErrors (raw : Bool) (l : List Data)
  /-- `[:error :raw-plugins]` with a message and an exception, or `:booked-plugins` -/
  | pluginException (raw : Bool)
  /-- `[:error :booking :spanned-reports]`; the sequence is lazy, `none` if making it throws -/
  | booking (reports : Option (List Data))
  /-- `[:error :booking :exception]` -/
  | bookingException

/-- What `load-beanfile` builds. -/
structure LoadedBeans (E : Ext) where
  pod : Pod E
  plugins : Option (List Resolved) := none
  options : Data := .nil
  rawDirectives : Option (List Data) := none
  rawXfDirectives : Option (List Data) := none
  bookedDirectives : Option (List Data) := none
  bookedXfDirectives : Option (List Data) := none
  directives : Option (List Data) := none
  registry : Option Data := none
  rawWarnings : Data := .nil
  bookedWarnings : Data := .nil
  error : Option LoadError := none

/-- A stage; an exception leaves the process as it is. -/
abbrev Stage (E : Ext) := LoadedBeans E → Except (Pod E) (LoadedBeans E)

variable {E : Ext} {L : BookLib}

/-- One plugin: `resolve-xfs-with-config`, clj/src/limabean/adapter/plugins.clj:38-44. -/
def resolvePlugin (F : Front E L) (options p : Data) : Resolved :=
  let r := F.resolve p options
  { name := p.get (str% "name"), raw := r.1, booked := r.2.1, err := r.2.2 }

/-- `get-plugins-and-options`: clj/src/limabean/adapter/loader.clj:25-40. -/
def getPluginsAndOptions (F : Front E L) : Stage E := fun m =>
  match m.pod.plugins F with
  | (pod, none) => .error pod
  | (pod, some r) =>
    if r.ok.truthy then
      match pod.options F with
      | (pod, none) => .error pod
      | (pod, some o) =>
        let resolved := r.ok.elems.map (resolvePlugin F o.ok)
        let errors := resolved.filter fun p => p.err.isSome
        .ok { m with pod := pod, plugins := some resolved, options := o.ok
                     error := if errors.isEmpty then m.error else some (.plugins errors) }
    else .ok { m with pod := pod, error := some (.parser r.spanned) }

/-- `get-raw-directives`: clj/src/limabean/adapter/loader.clj:42-50. -/
def getRawDirectives (F : Front E L) : Stage E := fun m =>
  match m.pod.directives F with
  | (pod, none) => .error pod
  | (pod, some r) =>
    if r.ok.truthy then
      .ok { m with pod := pod, rawDirectives := some (r.ok.get (str% "directives")).elems
                   rawWarnings := if (r.ok.get (str% "warnings")).elems.isEmpty then m.rawWarnings else r.ok.get (str% "warnings") }
    else .error pod

/-- The string of a name. -/
def nameStr : Data → Str
  | .str s => s
  | _ => []

/-- The plugins of a kind: clj/src/limabean/adapter/plugins.clj:83-101. -/
def pluginsOfKind (raw : Bool) (l : List Resolved) : List Plugin :=
  l.filterMap fun r => (if raw then r.raw else r.booked).map fun p => { p with name := nameStr r.name }

/-- The directives as objects. -/
def objects (ds : List Data) : List Obj := ds.zipIdx.map fun x => { tok := x.2, data := x.1 }

/-- `merge-with-provenance` with a server: clj/src/limabean/adapter/synthetic_spans.clj:28-44. -/
def mergeWithPod (F : Front E L) (pod : Pod E) (ds : List Data) : Pod E × Option (List Data) :=
  (if (spanRequests F.texts F.txt ds).isEmpty then pod else (pod.createSpans F (spanRequests F.texts F.txt ds)).1,
    mergeWithProvenance F.texts F.txt (fun rs => (pod.createSpans F rs).2) ds)

/-- The body of `try` in `run-plugins`: clj/src/limabean/adapter/loader.clj:66-76. -/
def transformed (F : Front E L) (raw : Bool) (ps : List Plugin) (pod : Pod E) (ds : List Data) : Pod E × Option (List Data) :=
  match runPlugins F.hash (F.valid raw) (if raw then none else some (str% "booked")) ps ds.length (objects ds) with
  | none => (pod, none)
  | some out => mergeWithPod F pod (out.map Obj.data)

/-- `run-plugins`: clj/src/limabean/adapter/loader.clj:52-89. -/
def runPluginsStage (F : Front E L) (raw : Bool) : Stage E := fun m =>
  let ps := pluginsOfKind raw (m.plugins.getD [])
  if ps.isEmpty then .ok m
  else match transformed F raw ps m.pod ((if raw then m.rawDirectives else m.bookedDirectives).getD []) with
    | (pod, none) => .ok { m with pod := pod, error := some (.pluginException raw) }
    | (pod, some xs) =>
      let errors := xs.filter fun d => (d.get (str% "err")).truthy
      .ok { m with pod := pod
                   rawXfDirectives := if raw then some xs else m.rawXfDirectives
                   bookedXfDirectives := if raw then m.bookedXfDirectives else some xs
                   error := if errors.isEmpty then m.error else some (.dctErrors raw errors) }

/-- `book-raw-directives`: clj/src/limabean/adapter/loader.clj:156-178. -/
def bookRawDirectives (F : Front E L) : Stage E := fun m =>
  let raw := Data.vec ((m.rawXfDirectives.or m.rawDirectives).getD [])
  match m.pod.book F m.rawXfDirectives with
  | (pod, none) => .ok { m with pod := pod, error := some .bookingException }
  | (pod, some r) =>
    if r.ok.truthy then
      .ok { m with pod := pod, bookedDirectives := some (resolveDirectives (r.ok.get (str% "directives")) raw).elems
                   bookedWarnings := if (r.ok.get (str% "warnings")).elems.isEmpty then m.bookedWarnings else r.ok.get (str% "warnings") }
    else .ok { m with pod := pod, error := some (.booking (resolveReportsFromRaw F.txt r.indexed raw)) }

/-- The directives of the ledger: clj/src/limabean/adapter/loader.clj:191-193. -/
def setDirectives : Stage E := fun m => .ok { m with directives := some ((m.bookedXfDirectives.or m.bookedDirectives).getD []) }

/-- The registry: clj/src/limabean/adapter/loader.clj:194-195. -/
def setRegistry (F : Front E L) : Stage E := fun m =>
  match F.registry (m.directives.getD []) m.options with
  | none => .error m.pod
  | some r => .ok { m with registry := some r }

/-- `bind->`: clj/src/limabean/macros.clj:3-10. -/
def bindAll (m : LoadedBeans E) : List (Stage E) → Except (Pod E) (LoadedBeans E)
  | [] => .ok m
  | f :: fs => if m.error.isSome then bindAll m fs else match f m with
    | .error pod => .error pod
    | .ok m' => bindAll m' fs

/-- The stages: clj/src/limabean/adapter/loader.clj:186-195. -/
def stages (F : Front E L) : List (Stage E) :=
  [getPluginsAndOptions F, getRawDirectives F, runPluginsStage F true, bookRawDirectives F, runPluginsStage F false, setDirectives,
    setRegistry F]

/-- `load-beanfile`, given the server which the new process runs: clj/src/limabean/adapter/loader.clj:180-195. An exception leaves
behind the process, unless `start` has stopped it. -/
def loadBeanfile (F : Front E L) (s : Server E) : Except (Option (Pod E)) (LoadedBeans E) :=
  match Pod.start F s with
  | .error p => .error p
  | .ok pod => match bindAll { pod := pod } (stages F) with
    | .error pod => .error (some pod)
    | .ok m => .ok m

end Clj
end Limabean
