/-
The request loop of limabean-pod: rust/src/api/server.rs, rust/src/api/json_rpc.rs, and the resolution of reports in
rust/src/api/types/parser_type_conversions.rs.

`none` (type `Option`) stands for a panic, which kills the server. Not modelled: failures of writing to stdout, and logging. A
parse result is given in converted form; the conversion from the parser's types is in Server/Convert.lean.
-/
import Verif.Server.Wire
import Verif.Pod.Accumulator

namespace Limabean

/-- `Report`: rust/src/api/types.rs:24-38. -/
structure Report where
  message : Str
  reason : Str
  span : Span
  contexts : Option (List (Str × Span)) := none
  related : Option (List (Str × Span)) := none
  annotation : Option Str := none
deriving DecidableEq, Repr

/-- `SpannedSource`: rust/src/api/types/raw.rs:312-323. -/
structure SpannedSource where
  fileName : Option Str
  startLine : Nat
  endLine : Nat
  content : Str
deriving DecidableEq, Repr

/-- `SyntheticSpan`: rust/src/api/types.rs:16-21. -/
structure SyntheticSpan where
  name : Str
  content : Str
deriving DecidableEq, Repr

/-- An error of the parser: what `from_error_or_warning` reads of it,
rust/src/api/types/parser_type_conversions.rs:454-480. -/
structure ParserError where
  message : Str
  reason : Str
  span : Span
  contexts : List (Str × Span) := []
  related : List (Str × Span) := []
deriving DecidableEq, Repr

/-- `Id`: rust/src/api/json_rpc.rs:148-154. The third variant holds the integer that was sent. -/
inductive Id
  | string (s : Str)
  | int (n : Int)
  | float (n : Int)
deriving DecidableEq, Repr

/-- `RequestMethod`: rust/src/api/json_rpc.rs:20-41. -/
inductive Method
  | status
  | plugins
  | directives
  | options
  | formatErrors (reports : List Report)
  | formatWarnings (reports : List Report)
  | resolveSpans (spans : List Span)
  | createSpans (items : List SyntheticSpan)
  | book (directives : Option (List Raw.Directive))
deriving DecidableEq

/-- `Request`: rust/src/api/json_rpc.rs:8-16. -/
structure Request where
  jsonrpc : Str
  id : Option Id
  method : Method
deriving DecidableEq

/-- What the parser crate and the text rendering provide. -/
structure Ext where
  /-- `SyntheticSources` -/
  Sources : Type
  /-- `create_synthetic_span` -/
  create : Sources → Str → Str → Sources × Span
  /-- `resolve_span`; `none` if it panics -/
  resolve : Sources → Span → Option SpannedSource
  /-- `write_report`, for errors (`true`) or warnings; `none` if it fails -/
  writeReport : Sources → Bool → Report → Option Str
  /-- the text of a reason -/
  reasonText : Reason → Str
  /-- the text of an annotation table: tabulator -/
  rowsText : List DiagRow → Str
  /-- the nearest double of an integer -/
  f64 : Int → Dec
  /-- the text of serde_json's error -/
  serdeText : Json → Str

/-- `Options`: rust/src/api/types/raw.rs:244-289; the options no part of limabean reads are kept as JSON. -/
structure LedgerOptions where
  nameAssets : Str
  nameLiabilities : Str
  nameEquity : Str
  nameIncome : Str
  nameExpenses : Str
  bookingMethod : Option Booking := none
  rawPlugins : Option Bool := none
  tolerance : Tolerance := {}
  others : List (Str × Json) := []

/-- `Parsed`: rust/src/api/server.rs:48-53. -/
structure Parsed where
  directives : List Raw.Directive
  options : LedgerOptions
  plugins : List (Str × Option Str)

/-- `Server`: rust/src/api/server.rs:40-46. -/
inductive Server (E : Ext)
  | unreadable (message : Str)
  | ready (sources : E.Sources) (parsed : Except (List ParserError) Parsed)

/-- `ErrorData.data`: rust/src/api/json_rpc.rs:137-146. -/
inductive ErrorData
  | none
  | reports (l : List Report)
  | indexed (l : List IndexedReport)
deriving DecidableEq

/-- `ResultData`, or `ErrorData`: rust/src/api/json_rpc.rs:74-89, 137-146. -/
inductive Payload
  | ok
  | plugins (l : List (Str × Option Str))
  | directives (l : List Raw.Directive)
  | options (o : LedgerOptions)
  | report (text : Str)
  | resolved (l : List SpannedSource)
  | spans (l : List Span)
  | booked (l : List Booked.Directive)
  | error (code : Int) (message : Str) (data : ErrorData)

/-- `ResultResponse` or `ErrorResponse`: rust/src/api/json_rpc.rs:56-135. -/
structure Response where
  id : Option Id
  payload : Payload

namespace Server

/-- `ERROR_BEANFILE_IO_ERROR`: rust/src/api/json_rpc.rs:160. -/
def errorBeanfileIo : Int := 1
/-- `ERROR_REPORT`: rust/src/api/json_rpc.rs:161. -/
def errorReport : Int := 2
/-- `ERROR_INDEXED_REPORT`: rust/src/api/json_rpc.rs:162. -/
def errorIndexedReport : Int := 3
/-- `ERROR_PARSE`: rust/src/api/json_rpc.rs:163. -/
def errorParse : Int := -32700
/-- `ERROR_INVALID_REQUEST`: rust/src/api/json_rpc.rs:164. -/
def errorInvalidRequest : Int := -32600

/-- `JSONRPC_VERSION`: rust/src/api/json_rpc.rs:156. -/
def jsonrpcVersion : Str := str% "2.0"

end Server

namespace Wire
open Json

/-- `Id`: rust/src/api/json_rpc.rs:148-154. Untagged: a string, then an `i32`, then an `f64`, which also takes the
integers of 64 bits. Other numbers are buffered as a map by serde_json's `arbitrary_precision` and are refused. -/
def decId : Json → Option Id
  | .str s => if borrowable s then some (.string s) else none
  | .num ⟨m, 0⟩ =>
    if -2147483648 ≤ m ∧ m ≤ 2147483647 then some (.int m)
    else if -9223372036854775808 ≤ m ∧ m ≤ 18446744073709551615 then some (.float m)
    else none
  | _ => none

/-- `Id`: rust/src/api/json_rpc.rs:148-154. -/
def encId (f64 : Int → Dec) : Id → Json
  | .string s => .str s
  | .int n => .num ⟨n, 0⟩
  | .float n => .num (f64 n)

/-- An entry of `contexts` or `related`. -/
def decLabelled : Json → Option (Str × Span)
  | .arr [a, b] => match toStr a, decSpan b with
    | some a, some b => some (a, b)
    | _, _ => none
  | _ => none

/-- An entry of `contexts` or `related`. -/
def encLabelled (x : Str × Span) : Json := .arr [.str x.1, encSpan x.2]

/-- `Report`: rust/src/api/types.rs:24-38. -/
def decReport : Json → Option Report
  | .obj l => do
    let message ← req l (str% "message") toStr
    let reason ← req l (str% "reason") toStr
    let span ← req l (str% "span") decSpan
    let contexts ← opt l (str% "contexts") (toList decLabelled)
    let related ← opt l (str% "related") (toList decLabelled)
    let annotation ← opt l (str% "annotation") toStr
    return { message := message, reason := reason, span := span, contexts := contexts, related := related,
             annotation := annotation }
  | _ => none

/-- `Report`: rust/src/api/types.rs:24-38. -/
def encReport (r : Report) : Json :=
  .obj ([(str% "message", .str r.message), (str% "reason", .str r.reason), (str% "span", encSpan r.span)] ++
    entry (str% "contexts") r.contexts (fun l => .arr (l.map encLabelled)) ++
    entry (str% "related") r.related (fun l => .arr (l.map encLabelled)) ++
    entry (str% "annotation") r.annotation .str)

/-- `SyntheticSpan`: rust/src/api/types.rs:16-21. -/
def decSynthetic : Json → Option SyntheticSpan
  | .obj l => do
    let name ← req l (str% "name") toStr
    let content ← req l (str% "content") toStr
    return { name := name, content := content }
  | _ => none

/-- `SyntheticSpan`: rust/src/api/types.rs:16-21. -/
def encSynthetic (s : SyntheticSpan) : Json := .obj [(str% "name", .str s.name), (str% "content", .str s.content)]

/-- `RequestMethod`: rust/src/api/json_rpc.rs:20-54. -/
def decMethod (l : List (Str × Json)) : Option Method :=
  match req l (str% "method") toStr with
  | none => none
  | some m =>
    if m = str% "status" then some .status
    else if m = str% "parser.plugins" then some .plugins
    else if m = str% "parser.directives" then some .directives
    else if m = str% "parser.options" then some .options
    else if m = str% "parser.format-errors" then (req l (str% "params") (toList decReport)).map .formatErrors
    else if m = str% "parser.format-warnings" then (req l (str% "params") (toList decReport)).map .formatWarnings
    else if m = str% "parser.resolve-spans" then (req l (str% "params") (toList decSpan)).map .resolveSpans
    else if m = str% "parser.create-synthetic-spans" then
      (req l (str% "params") (toList decSynthetic)).map .createSpans
    else if m = str% "book" then (opt l (str% "params") (toList decDirective)).map .book
    else none

/-- `Request`: rust/src/api/json_rpc.rs:8-16. -/
def decRequest : Json → Option Request
  | .obj l => do
    let jsonrpc ← req l (str% "jsonrpc") toRef
    let id ← opt l (str% "id") decId
    let method ← decMethod l
    return { jsonrpc := jsonrpc, id := id, method := method }
  | _ => none

end Wire

namespace Server
variable {E : Ext}

/-- `from_error_or_warning`: rust/src/api/types/parser_type_conversions.rs:454-480. -/
def parserReport (e : ParserError) : Report :=
  { message := e.message, reason := e.reason, span := e.span
    contexts := if e.contexts.isEmpty then none else some e.contexts
    related := if e.related.isEmpty then none else some e.related }

/-- `create_reports_from_parser_errors`: rust/src/api/types/parser_type_conversions.rs:482-492. -/
def parserReports (l : List ParserError) : List Report := l.map parserReport

/-- The name of a variant (strum's `IntoStaticStr`, kebab case): rust/src/api/types/raw.rs:31-52. -/
def variantName : Raw.Variant → Str
  | .transaction _ => str% "transaction"
  | .price _ => str% "price"
  | .balance _ => str% "balance"
  | .opn _ => str% "open"
  | .close _ => str% "close"
  | .commodity _ => str% "commodity"
  | .pad _ => str% "pad"
  | .document _ => str% "document"
  | .note _ => str% "note"
  | .event _ => str% "event"
  | .query _ => str% "query"
  | .custom _ => str% "custom"

/-- `resolve_indexed_element`: rust/src/api/types/parser_type_conversions.rs:534-556; `none` is a panic. -/
def resolveElement (idx : ElementIdx) (ds : List Raw.Directive) : Option (Str × Span) :=
  match ds[idx.directive]? with
  | none => none
  | some d => match d.variant, idx.posting with
    | .transaction t, some p => match t.postings[p]? with
      | none => none
      | some q => match q.span with
        | none => none
        | some s => some (str% "posting", s)
    | v, _ => match d.span with
      | none => none
      | some s => some (variantName v, s)

/-- The contexts of a resolved report: rust/src/api/types/parser_type_conversions.rs:513-521. -/
def resolveContexts (ds : List Raw.Directive) (e : ElementIdx) : Option (Option (List (Str × Span))) :=
  match e.posting with
  | none => some none
  | some _ => match resolveElement { directive := e.directive } ds with
    | some c => some (some [c])
    | none => none

/-- The related elements of a resolved report: rust/src/api/types/parser_type_conversions.rs:522-527. -/
def resolveRelated (ds : List Raw.Directive) (related : Option (List ElementIdx)) :
    Option (Option (List (Str × Span))) :=
  match related with
  | none => some none
  | some l => (Json.all (fun i => resolveElement i ds) l).map some

/-- One report of `create_reports_from_booking_errors`: rust/src/api/types/parser_type_conversions.rs:506-530. -/
def resolveReport (E : Ext) (ds : List Raw.Directive) (r : IndexedReport) : Option Report :=
  match resolveElement r.idx ds, resolveContexts ds r.idx, resolveRelated ds r.related with
  | some (kind, span), some contexts, some related => some
    { message := str% "invalid " ++ kind, reason := E.reasonText r.reason, span := span, contexts := contexts,
      related := related, annotation := r.annotation.map E.rowsText }
  | _, _, _ => none

/-- `create_reports_from_booking_errors`: rust/src/api/types/parser_type_conversions.rs:494-532. -/
def resolveReports (E : Ext) (ds : List Raw.Directive) (l : List IndexedReport) : Option (List Report) :=
  Json.all (resolveReport E ds) l

/-- `write_error_reports`: rust/src/api/server.rs:430-445. -/
def errorReports (id : Option Id) (l : List Report) : Response :=
  { id := id, payload := .error errorReport (str% "Error reports") (.reports l) }

/-- `write_indexed_error_reports`: rust/src/api/server.rs:447-462. -/
def indexedErrorReports (id : Option Id) (l : List IndexedReport) : Response :=
  { id := id, payload := .error errorIndexedReport (str% "Error reports") (.indexed l) }

/-- `write_other_error`: rust/src/api/server.rs:464-474. -/
def otherError (id : Option Id) (code : Int) (message : Str) : Response :=
  { id := id, payload := .error code message .none }

/-- `parser_plugins`: rust/src/api/server.rs:202-221. -/
def plugins (id : Option Id) : Except (List ParserError) Parsed → Response
  | .ok p => { id := id, payload := .plugins p.plugins }
  | .error es => errorReports none (parserReports es)

/-- `parser_directives`: rust/src/api/server.rs:223-247. -/
def directives (id : Option Id) : Except (List ParserError) Parsed → Response
  | .ok p => { id := id, payload := .directives p.directives }
  | .error es => errorReports none (parserReports es)

/-- `parser_options`: rust/src/api/server.rs:249-265. -/
def options (id : Option Id) : Except (List ParserError) Parsed → Response
  | .ok p => { id := id, payload := .options p.options }
  | .error es => errorReports none (parserReports es)

/-- The text of one report: rust/src/api/server.rs:285-289. -/
def formatOne (src : E.Sources) (isError : Bool) (r : Report) : Option Str :=
  (E.writeReport src isError r).map fun t => t ++ match r.annotation with
    | some a => a ++ ['\n']
    | none => []

/-- The loop of `parser_format_report`: rust/src/api/server.rs:267-296; `sep` says whether a separator is due. -/
def formatReports (src : E.Sources) (isError : Bool) : Bool → List Report → Option Str
  | _, [] => some []
  | sep, r :: rest =>
    match formatOne src isError r, formatReports src isError true rest with
    | some t, some t' => some ((if sep then ['\n'] else []) ++ t ++ t')
    | _, _ => none

/-- `parser_create_synthetic_spans`: rust/src/api/server.rs:312-333. -/
def createSpans (src : E.Sources) : List SyntheticSpan → E.Sources × List Span
  | [] => (src, [])
  | s :: rest =>
    let r := E.create src s.name s.content
    let r' := createSpans r.1 rest
    (r'.1, r.2 :: r'.2)

/-- The options which booking reads: rust/src/api/booking.rs:11-27. -/
def bookOptions (o : LedgerOptions) : BookOptions := { bookingMethod := o.bookingMethod, tolerance := o.tolerance }

/-- `HealthyServer::book`: rust/src/api/server.rs:335-398; `none` is a panic. -/
def bookRequest (E : Ext) (L : BookLib) (order : AMap Str (Account L) → AMap Str (Account L)) (id : Option Id)
    (params : Option (List Raw.Directive)) : Except (List ParserError) Parsed → Option Response
  | .error es => some (errorReports id (parserReports es))
  | .ok p =>
    let toBook := params.getD p.directives
    match book L order (bookOptions p.options) toBook with
    | .panic => none
    | .success ds _ => some { id := id, payload := .booked ds }
    | .failure es =>
      if params.isNone then (resolveReports E toBook es).map (errorReports id)
      else some (indexedErrorReports id es)

/-- The methods of a healthy server: rust/src/api/server.rs:139-174; `none` is a panic. -/
def healthy (E : Ext) (L : BookLib) (order : AMap Str (Account L) → AMap Str (Account L)) (id : Option Id)
    (src : E.Sources) (parsed : Except (List ParserError) Parsed) : Method → Option (E.Sources × Response)
  | .status => some (src, { id := id, payload := .ok })
  | .plugins => some (src, plugins id parsed)
  | .directives => some (src, directives id parsed)
  | .options => some (src, options id parsed)
  | .formatErrors rs => (formatReports src true false rs).map fun t => (src, { id := id, payload := .report t })
  | .formatWarnings rs => (formatReports src false false rs).map fun t => (src, { id := id, payload := .report t })
  | .resolveSpans ss => (Json.all (E.resolve src) ss).map fun l => (src, { id := id, payload := .resolved l })
  | .createSpans xs =>
    let r := createSpans src xs
    some (r.1, { id := id, payload := .spans r.2 })
  | .book ds => (bookRequest E L order id ds parsed).map fun r => (src, r)

/-- `dispatch` of a decoded request: rust/src/api/server.rs:120-187; `none` is a panic. -/
def answer (E : Ext) (L : BookLib) (order : AMap Str (Account L) → AMap Str (Account L)) (s : Server E) (r : Request) :
    Option (Server E × Response) :=
  if r.jsonrpc ≠ jsonrpcVersion then
    some (s, otherError r.id errorInvalidRequest (str% "JSON-RPC protocol must be 2.0, found " ++ r.jsonrpc))
  else match s with
    | .unreadable m => some (s, otherError r.id errorBeanfileIo m)
    | .ready src parsed => (healthy E L order r.id src parsed r.method).map fun (src', resp) => (.ready src' parsed, resp)

/-- A line of input. -/
inductive Line
  /-- bytes which are not UTF-8: `read_line` fails -/
  | notText
  /-- text which is not JSON, with serde_json's error -/
  | garbage (error : Str)
  /-- a JSON value -/
  | json (j : Json)

/-- `dispatch`: rust/src/api/server.rs:116-187; `none` is a panic. -/
def dispatch (E : Ext) (L : BookLib) (order : AMap Str (Account L) → AMap Str (Account L)) (s : Server E) :
    Line → Option (Server E × Response)
  | .notText => none
  | .garbage e => some (s, otherError none errorParse e)
  | .json j => match Wire.decRequest j with
    | none => some (s, otherError none errorParse (E.serdeText j))
    | some r => answer E L order s r

/-- How the process ends. -/
inductive Exit
  | status (code : Nat)
  | panicked
deriving DecidableEq, Repr

/-- `serve`: rust/src/api/server.rs:81-114: the responses written to the end of input, and how the process ends.
`orders n` is the iteration order of the hash maps during the `n`-th request: every map has its own. -/
def serve (E : Ext) (L : BookLib) (orders : Nat → AMap Str (Account L) → AMap Str (Account L)) :
    Nat → Server E → List Line → List Response × Exit
  | _, _, [] => ([], .status 0)
  | _, _, .notText :: _ => ([], .status 1)
  | n, s, line :: rest => match dispatch E L (orders n) s line with
    | none => ([], .panicked)
    | some (s', r) =>
      let x := serve E L orders (n + 1) s' rest
      (r :: x.1, x.2)

end Server
end Limabean
