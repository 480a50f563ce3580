/-
Plugins which come with limabean as examples: clj/test-plugins/src/limabean/test/plugins.

The documentation explains plugins with the first of them (clj/doc/40-plugins.md, "Set narration"). As in Clj/AutoPlugin.lean calls of `rf` whose
results a plugin drops count nevertheless. What a plugin takes from its configuration is a parameter.
-/
import Verif.Clj.AutoPlugin
import Verif.Clj.Beans

namespace Limabean
namespace Clj

/-- `raw-xf` of clj/test-plugins/src/limabean/test/plugins/set_narration.clj:3-18. Simplified: `assoc` always makes a new object, also if the
narration is the same object. -/
def narrationPlugin (narration : Str) : Plugin where
  name := []
  step l := match l.getLast? with
    | none => []
    | some d =>
      if isKw (d.get (str% "dct")) (str% "txn") then [.new (d.assoc (str% "narration") (.str narration))] else [.old (l.length - 1)]
  finish _ := []

/-- A plugin which uses the deprecated `error!` (clj/src/limabean/plugin.clj:3-7) on the directives it matches, instead of `dct-error!` as the
plugin above: it throws an exception with the message, and with the directive and the name of the plugin as data. -/
def throwPlugin (hit : Data → Bool) (message : Str) : Plugin where
  name := []
  step l := match l.getLast? with
    | none => []
    | some d => if hit d then [.throws message] else [.old (l.length - 1)]
  finish _ := []

/-- The directive which the plugin below makes: clj/test-plugins/src/limabean/test/plugins/auto_close.clj:22. -/
def closeData (d : Data) : Data :=
  .map [(str% "date", d.get (str% "date")), (str% "dct", .kw (str% "close")), (str% "acc", d.get (str% "acc"))]

/-- `raw-xf` of clj/test-plugins/src/limabean/test/plugins/auto_close.clj:3-30, configured for raw directives and these accounts. -/
def closePlugin (accs : List Str) : Plugin where
  name := []
  step l := match l.getLast? with
    | none => []
    | some d =>
      if isKw (d.get (str% "dct")) (str% "open") && (strings (d.get (str% "acc"))).any accs.contains then
        [.old (l.length - 1), .new (closeData d)]
      else [.old (l.length - 1)]
  finish _ := []

/-- `raw-xf` and `booked-xf` of clj/test-plugins/src/limabean/test/plugins/identity.clj:3-25. -/
def identityPlugin : Plugin where
  name := []
  step l := if l.isEmpty then [] else [.old (l.length - 1)]
  finish _ := []

/-- What `dct-error!` puts on a directive, from a plugin with this namespace: clj/src/limabean/plugin.clj:14-15. -/
def complaint (message ns : Str) : Data := .map [(str% "message", .str message), (str% "plugin", .str ns)]

/-- `dct-error!`: clj/src/limabean/plugin.clj:9-15. Simplified: errors which are there already are a vector, as this macro makes them. -/
def dctError (message ns : Str) (d : Data) : Data :=
  d.assoc (str% "err") (.vec (((d.get (str% "err")).or (.vec [])).elems ++ [complaint message ns]))

/-- `raw-xf` and `booked-xf` of clj/test-plugins/src/limabean/test/plugins/fail.clj:4-32, configured for the phase in which it runs. Which
directives it matches (fail.clj:20) is a parameter. -/
def rejectPlugin (hit : Data → Bool) (message : Str) : Plugin where
  name := []
  step l := match l.getLast? with
    | none => []
    | some d => if hit d then [.new (dctError message (str% "limabean.test.plugins.fail") d)] else [.old (l.length - 1)]
  finish _ := []

/-- The directive which the plugin below makes: clj/test-plugins/src/limabean/test/plugins/create_event.clj:16-19. Simplified: the
description is a string or missing. -/
def eventData (d : Data) : Data :=
  ((d.selectKeys [str% "date", str% "dct"]).assoc (str% "type") (.str (str% "Planning"))).assoc (str% "description")
    (.str (str% "Anticipating " ++ ((d.get (str% "description")).str?).getD []))

/-- `booked-xf` of clj/test-plugins/src/limabean/test/plugins/create_event.clj:3-21. -/
def eventPlugin : Plugin where
  name := []
  step l := match l.getLast? with
    | none => []
    | some d =>
      if isKw (d.get (str% "dct")) (str% "event") then [.new (eventData d), .old (l.length - 1)] else [.old (l.length - 1)]
  finish _ := []

/-- The posting which the plugin below makes: clj/test-plugins/src/limabean/test/plugins/adjust_postings_after_booking.clj:21-25.
Simplified: units which are not a number, for which there would be an exception, are left as they are. -/
def adjustPosting (config : AMap Str Dec) (pst : Data) : Data :=
  match ((pst.get (str% "acc")).str?).bind config.get, (pst.get (str% "units")).num? with
  | some adj, some u => pst.assoc (str% "units") (.num (adj.add u))
  | _, _ => pst

/-- `booked-xf` of clj/test-plugins/src/limabean/test/plugins/adjust_postings_after_booking.clj:4-27. -/
def adjustPlugin (config : AMap Str Dec) : Plugin where
  name := []
  step l := match l.getLast? with
    | none => []
    | some d =>
      if isKw (d.get (str% "dct")) (str% "txn") &&
          (d.get (str% "postings")).elems.any fun pst => (((pst.get (str% "acc")).str?).bind config.get).isSome then
        [.new (d.assoc (str% "postings") (.vec ((d.get (str% "postings")).elems.map (adjustPosting config))))]
      else [.old (l.length - 1)]
  finish _ := []

/-- `(conj (or tags #{}) tag)`: clj/test-plugins/src/limabean/test/plugins/tag_matching.clj:19. Simplified: tags are a set or missing. -/
def conjTag (tags : Data) (tag : Str) : Data :=
  .set (if tags.elems.any fun x => x.str? == some tag then tags.elems else tags.elems ++ [.str tag])

/-- `raw-xf` of clj/test-plugins/src/limabean/test/plugins/tag_matching.clj:4-21. Which directives match (tag_matching.clj:18) is a
parameter. -/
def tagPlugin (hit : Data → Bool) (tag : Str) : Plugin where
  name := []
  step l := match l.getLast? with
    | none => []
    | some d => if hit d then [.new (d.assoc (str% "tags") (conjTag (d.get (str% "tags")) tag))] else [.old (l.length - 1)]
  finish _ := []

/-- `raw-xf` of clj/test-plugins/src/limabean/test/plugins/set_metadata.clj:3-17. Simplified: what is configured for a kind of directives
are maps. -/
def metadataPlugin (config : AMap Str (List (Str × Data))) : Plugin where
  name := []
  step l := match l.getLast? with
    | none => []
    | some d => match d.get (str% "dct") with
      | .kw k => match config.get k with
        | some m => [.new (d.assoc (str% "metadata") (((d.get (str% "metadata")).or (.map [])).mergeMap (.map m)))]
        | none => [.old (l.length - 1)]
      | _ => [.old (l.length - 1)]
  finish _ := []

/-- The copy which the plugin below makes: clj/test-plugins/src/limabean/test/plugins/duplicate_txns.clj:16-20. -/
def copyData (d : Data) : Data :=
  (((d.dissoc (str% "span")).assoc (str% "postings") (.vec ((d.get (str% "postings")).elems.map fun p => p.dissoc (str% "span")))).assoc
    (str% "metadata") (((d.get (str% "metadata")).or (.map [])).assoc (str% "dup") .nil))

/-- `raw-xf` of clj/test-plugins/src/limabean/test/plugins/duplicate_txns.clj:3-22. -/
def duplicatePlugin : Plugin where
  name := []
  step l := match l.getLast? with
    | none => []
    | some d => if isKw (d.get (str% "dct")) (str% "txn") then [.new (copyData d), .old (l.length - 1)] else [.old (l.length - 1)]
  finish _ := []

end Clj
end Limabean
