/-
How the server writes its responses: rust/src/api/json_rpc.rs:56-146, rust/src/api/types.rs:7-50, rust/src/api/types/raw.rs:244-323,
rust/src/api/types/serializers.rs:182-194.
-/
import Verif.Server.Server

namespace Limabean
namespace Wire

open Json

/-- `Plugin`: rust/src/api/types.rs:8-13. -/
def encPlugin (p : Str × Option Str) : Json :=
  .obj [(str% "name", .str p.1), (str% "config", match p.2 with | some c => .str c | none => .null)]

/-- `Serialize for ElementIdx`: rust/src/api/types/serializers.rs:182-194. -/
def encElement (e : ElementIdx) : Json := .arr (nat e.directive :: match e.posting with | some p => [nat p] | none => [])

/-- `IndexedReport`: rust/src/api/types.rs:41-50. -/
def encIndexed (E : Ext) (r : IndexedReport) : Json :=
  .obj ([(str% "reason", .str (E.reasonText r.reason)), (str% "idx", encElement r.idx)] ++
    entry (str% "related") r.related (fun l => .arr (l.map encElement)) ++
    entry (str% "annotation") r.annotation (fun a => .str (E.rowsText a)))

/-- `SpannedSource`: rust/src/api/types/raw.rs:312-323. -/
def encSource (s : SpannedSource) : Json :=
  .obj (entry (str% "file-name") s.fileName .str ++
    [(str% "start-line", nat s.startLine), (str% "end-line", nat s.endLine), (str% "content", .str s.content)])

/-- The tolerances by currency: rust/src/api/types/parser_type_conversions.rs:326-335. -/
def tolerancesByCurrency (t : Tolerance) : List (Str × Dec) :=
  t.defaults.foldl (fun m p => match p.1 with | some c => AMap.set m c p.2 | none => m) []

/-- The tolerance for other currencies: rust/src/api/types/parser_type_conversions.rs:326-335. -/
def toleranceFallback (t : Tolerance) : Option Dec :=
  t.defaults.foldl (fun o p => match p.1 with | some _ => o | none => some p.2) none

/-- `Options`: rust/src/api/types/raw.rs:244-289. The order of the entries is another one. -/
def optionEntries (o : LedgerOptions) : List (Str × Json) :=
  [(str% "name-assets", .str o.nameAssets), (str% "name-liabilities", .str o.nameLiabilities),
      (str% "name-equity", .str o.nameEquity), (str% "name-income", .str o.nameIncome), (str% "name-expenses", .str o.nameExpenses)] ++
    entry (str% "inferred-tolerance-default")
      (if (tolerancesByCurrency o.tolerance).isEmpty then none else some (tolerancesByCurrency o.tolerance))
      (fun l => .obj (l.map fun p => (p.1, .num p.2))) ++
    entry (str% "inferred-tolerance-default-fallback") (toleranceFallback o.tolerance) .num ++
    entry (str% "inferred-tolerance-multiplier") o.tolerance.multiplier .num ++
    entry (str% "infer-tolerance-from-cost") o.tolerance.fromCost .bool ++
    entry (str% "booking-method") o.bookingMethod encBooking ++
    entry (str% "plugin-processing-mode") o.rawPlugins (fun b => .str (if b then str% "raw" else str% "default")) ++
    o.others

/-- `Options`: rust/src/api/types/raw.rs:244-289. -/
def encOptions (o : LedgerOptions) : Json := .obj (optionEntries o)

/-- `ErrorData.data`: rust/src/api/json_rpc.rs:137-146. -/
def encData (E : Ext) : ErrorData → List (Str × Json)
  | .none => []
  | .reports l => [(str% "data", .arr (l.map encReport))]
  | .indexed l => [(str% "data", .arr (l.map (encIndexed E)))]

/-- `ResultData` or `ErrorData`: rust/src/api/json_rpc.rs:74-102, 137-146. -/
def encPayload (E : Ext) : Payload → Str × Json
  | .ok => (str% "result", .null)
  | .plugins l => (str% "result", .arr (l.map encPlugin))
  | .directives l => (str% "result", .obj [(str% "directives", .arr (l.map encDirective)), (str% "warnings", .null)])
  | .options o => (str% "result", encOptions o)
  | .report t => (str% "result", .str t)
  | .resolved l => (str% "result", .arr (l.map encSource))
  | .spans l => (str% "result", .arr (l.map encSpan))
  | .booked l => (str% "result", .obj [(str% "directives", .arr (l.map encBookedDirective))])
  | .error c m d => (str% "error", .obj ([(str% "code", .num ⟨c, 0⟩), (str% "message", .str m)] ++ encData E d))

/-- `ResultResponse` or `ErrorResponse`: rust/src/api/json_rpc.rs:56-135. -/
def encResponse (E : Ext) (r : Response) : Json :=
  .obj [(str% "jsonrpc", .str (str% "2.0")), (str% "id", match r.id with | some i => encId E.f64 i | none => .null),
    encPayload E r.payload]

end Wire
end Limabean
