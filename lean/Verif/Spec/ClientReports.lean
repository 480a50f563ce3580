/-
The Clojure data which stand for the server's reports.
-/
import Verif.Spec.ClientData
import Verif.Server.Response

namespace Limabean
namespace Spec

open Clj

/-- A location with its label. -/
def ofLabelled (x : Str × Span) : Data := .vec [.str x.1, ofSpan x.2]

/-- A report with spans. -/
def ofReport (r : Report) : Data :=
  .map ([(str% "message", .str r.message), (str% "reason", .str r.reason), (str% "span", ofSpan r.span)] ++
    optEntry (str% "contexts") r.contexts (fun l => .vec (l.map ofLabelled)) ++
    optEntry (str% "related") r.related (fun l => .vec (l.map ofLabelled)) ++
    optEntry (str% "annotation") r.annotation .str)

/-- A position in the ledger. -/
def ofElement (e : ElementIdx) : Data := .vec (ofNat e.directive :: match e.posting with | some p => [ofNat p] | none => [])

/-- A report with positions. -/
def ofIndexed (E : Ext) (r : IndexedReport) : Data :=
  .map ([(str% "reason", .str (E.reasonText r.reason)), (str% "idx", ofElement r.idx)] ++
    optEntry (str% "related") r.related (fun l => .vec (l.map ofElement)) ++
    optEntry (str% "annotation") r.annotation (fun a => .str (E.rowsText a)))

end Spec
end Limabean
