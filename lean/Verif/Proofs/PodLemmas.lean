/-
What calls of the client come to: the request as the server reads it, and the response as the client reads it.
-/
import Verif.Clj.Session
import Verif.Spec.ClientReports
import Verif.Proofs.DecodeLemmas
import Verif.Proofs.EncodeLemmas
import Verif.Proofs.DepthLemmas

namespace Limabean
namespace Clj

open Spec Json

variable {E : Ext} {L : BookLib}

/-- The entries of a request. -/
def requestEntries (ordm : List (Str × Json) → List (Str × Json)) (m : Str) (p : Data) (id : Nat) : List (Str × Json) :=
  [(str% "method", .str m)] ++ (if p.truthy then [(str% "params", toJson ordm p)] else []) ++
    [(str% "id", .num ⟨id, 0⟩), (str% "jsonrpc", .str (str% "2.0"))]

theorem decRequest_message {ordm : List (Str × Json) → List (Str × Json)} (ho : IsMapOrder ordm) (m : Str) (p : Data) {id : Nat}
    (hid : id ≤ 2147483647) : Wire.decRequest (toJson ordm (message m p id)) =
      (Wire.decMethod (requestEntries ordm m p id)).map fun x =>
        { jsonrpc := Server.jsonrpcVersion, id := some (.int id), method := x } := by
  have h : Json.field (ordm ((([(str% "method", Data.str m)] ++ (if p.truthy then [(str% "params", p)] else []) ++
      [(str% "id", Data.num ⟨(id : Int), 0⟩), (str% "jsonrpc", .str (str% "2.0"))]).map fun q => (q.1, toJson ordm q.2)))) =
        Json.field (requestEntries ordm m p id) := by
    rw [field_perm ?_ (ho _)]
    · unfold requestEntries
      split <;> simp [toJson]
    · split <;> simp
  have hm : ∀ l, Json.field l = Json.field (requestEntries ordm m p id) →
      Wire.decMethod l = Wire.decMethod (requestEntries ordm m p id) := by
    intro l hl
    simp only [Wire.decMethod, Json.req, Json.opt, hl]
  simp only [message, toJson, entriesToJson_eq, Wire.decRequest, hm _ h, Json.req, Json.opt, h]
  have h1 : Json.field (requestEntries ordm m p id) (str% "jsonrpc") = some (some (.str (str% "2.0"))) := by
    unfold requestEntries
    split <;> simp [Json.field, Json.vals]
  have h2 : Json.field (requestEntries ordm m p id) (str% "id") = some (some (.num ⟨id, 0⟩)) := by
    unfold requestEntries
    split <;> simp [Json.field, Json.vals]
  have h3 : Json.toRef (.str (str% "2.0")) = some (str% "2.0") := rfl
  have h4 : Wire.decId (.num ⟨id, 0⟩) = some (.int id) := by
    simp only [Wire.decId]
    rw [if_pos (by omega)]
  rw [h1, h2]
  simp only [h3, h4, Option.map_some, Option.bind_eq_bind, Option.bind_some]
  cases Wire.decMethod (requestEntries ordm m p id) <;> rfl

/-- A call without parameters. -/
theorem decMethod_plain {ordm : List (Str × Json) → List (Str × Json)} {m : Str} {id : Nat} {x : Method}
    (h : (m, x) ∈ [(str% "status", Method.status), (str% "parser.plugins", .plugins), (str% "parser.directives", .directives),
      (str% "parser.options", .options), (str% "book", .book none)]) :
    Wire.decMethod (requestEntries ordm m .nil id) = some x := by
  simp only [List.mem_cons, Prod.mk.injEq, List.not_mem_nil, or_false] at h
  rcases h with ⟨rfl, rfl⟩ | ⟨rfl, rfl⟩ | ⟨rfl, rfl⟩ | ⟨rfl, rfl⟩ | ⟨rfl, rfl⟩ <;> rfl

/-- A call with parameters has them. -/
theorem params_field (ordm : List (Str × Json) → List (Str × Json)) (m : Str) (l : List Data) (id : Nat) :
    Json.field (requestEntries ordm m (.vec l) id) (str% "params") = some (some (toJson ordm (.vec l))) := by
  simp [requestEntries, Data.truthy, Json.field, Json.vals]

theorem method_field (ordm : List (Str × Json) → List (Str × Json)) (m : Str) (p : Data) (id : Nat) :
    Json.field (requestEntries ordm m p id) (str% "method") = some (some (.str m)) := by
  unfold requestEntries
  split <;> simp [Json.field, Json.vals]

theorem decMethod_formatErrors {ordm : List (Str × Json) → List (Str × Json)} (l : List Data) (id : Nat) :
    Wire.decMethod (requestEntries ordm (str% "parser.format-errors") (.vec l) id) =
      (Json.all Wire.decReport (l.map (toJson ordm))).map .formatErrors := by
  simp [Wire.decMethod, Json.req, params_field, method_field, toJson, Json.toStr, Json.toList, toJsons_eq]

theorem decMethod_createSpans {ordm : List (Str × Json) → List (Str × Json)} (l : List Data) (id : Nat) :
    Wire.decMethod (requestEntries ordm (str% "parser.create-synthetic-spans") (.vec l) id) =
      (Json.all Wire.decSynthetic (l.map (toJson ordm))).map .createSpans := by
  simp [Wire.decMethod, Json.req, params_field, method_field, toJson, Json.toStr, Json.toList, toJsons_eq]

theorem decMethod_book {ordm : List (Str × Json) → List (Str × Json)} (l : List Data) (id : Nat) :
    Wire.decMethod (requestEntries ordm (str% "book") (.vec l) id) =
      (Json.all Wire.decDirective (l.map (toJson ordm))).map fun ds => .book (some ds) := by
  simp [Wire.decMethod, Json.req, Json.opt, params_field, method_field, toJson, Json.toStr, Json.toList, toJsons_eq]
  rfl

/-- A call which the server understands. -/
theorem invoke_ready (F : Front E L) (ho : IsMapOrder F.ordm) {n k : Nat} (hn : n < 2147483647) {src : E.Sources}
    {parsed : Except (List ParserError) Parsed} {m : Str} {p : Data} {x : Method}
    (hx : Wire.decMethod (requestEntries F.ordm m p (n + 1)) = some x) {src' : E.Sources} {r : Response}
    (hr : Server.healthy E L (F.orders k) (some (.int ((n + 1 : Nat) : Int))) src parsed x = some (src', r))
    (hp : levels p < 127 := by simp [levels, levelsAll, levelsEntries]) :
    Pod.invoke F { nextId := n, server := some (.ready src parsed), served := k } m p =
      ({ nextId := n + 1, server := some (.ready src' parsed), served := k + 1 }, answerOf F.ord (some (Wire.encResponse E r))) := by
  have h : Server.dispatch E L (F.orders k) (.ready src parsed) (.json (toJson F.ordm (message m p (n + 1)))) =
      some (.ready src' parsed, r) := by
    rw [Server.dispatch, decRequest_message ho m p (by omega), hx]
    simp only [Option.map_some, Server.answer]
    rw [if_neg (by simp), hr]
    rfl
  simp [Pod.invoke, Pod.write, lineOf_message E ho hp, h, Pod.read]

/-- A call which the server does not understand. -/
theorem invoke_bad (F : Front E L) (ho : IsMapOrder F.ordm) {n k : Nat} (hn : n < 2147483647) {s : Server E} {m : Str} {p : Data}
    (hx : Wire.decMethod (requestEntries F.ordm m p (n + 1)) = none ∨ 127 ≤ levels p) :
    Pod.invoke F { nextId := n, server := some s, served := k } m p =
      ({ nextId := n + 1, server := some s, served := k + 1 },
        answerOf F.ord (some (Wire.encResponse E (Server.otherError none Server.errorParse (E.serdeText (toJson F.ordm (message m p (n + 1)))))))) := by
  have h : Server.dispatch E L (F.orders k) s (lineOf E (toJson F.ordm (message m p (n + 1)))) =
      some (s, Server.otherError none Server.errorParse (E.serdeText (toJson F.ordm (message m p (n + 1))))) := by
    rw [lineOf]
    split
    · rename_i hs
      rcases hx with hx | hx
      · rw [Server.dispatch, decRequest_message ho m p (by omega), hx]
        rfl
      · rw [nesting_toJson ho] at hs
        have := depth_message_ge m (n + 1) (p := p) (by omega)
        omega
    · rfl
  simp [Pod.invoke, Pod.write, h, Pod.read]

/-- A call on which the server dies. -/
theorem invoke_dies (F : Front E L) (ho : IsMapOrder F.ordm) {n k : Nat} (hn : n < 2147483647) {src : E.Sources}
    {parsed : Except (List ParserError) Parsed} {m : Str} {p : Data} {x : Method}
    (hx : Wire.decMethod (requestEntries F.ordm m p (n + 1)) = some x)
    (hr : Server.healthy E L (F.orders k) (some (.int ((n + 1 : Nat) : Int))) src parsed x = none)
    (hp : levels p < 127 := by simp [levels, levelsAll, levelsEntries]) :
    Pod.invoke F { nextId := n, server := some (.ready src parsed), served := k } m p =
      ({ nextId := n + 1, server := none, served := k }, some { ok := .nil, err := .nil }) := by
  have h : Server.dispatch E L (F.orders k) (.ready src parsed) (.json (toJson F.ordm (message m p (n + 1)))) = none := by
    rw [Server.dispatch, decRequest_message ho m p (by omega), hx]
    simp only [Option.map_some, Server.answer]
    rw [if_neg (by simp), hr]
    rfl
  simp [Pod.invoke, Pod.write, lineOf_message E ho hp, h, Pod.read, answerOf]

theorem decode_id (ord : List Data → List Data) (key : Option Str) (f64 : Int → Dec) (id : Option Id) :
    ∃ x, decode ord key (match id with | some i => Wire.encId f64 i | none => .null) = some x := by
  cases id with
  | none => exact ⟨_, decode_null key⟩
  | some i => cases i <;> simp [Wire.encId, decode, ofJson, convertValues]

/-- The client reads the result of a response. -/
theorem answer_result {ord : List Data → List Data} {id : Option Id} {p : Payload} {j : Json} {x : Data}
    (h : Wire.encPayload E p = (str% "result", j)) (hx : decode ord (some (str% "result")) j = some x) :
    answerOf ord (some (Wire.encResponse E { id := id, payload := p })) =
      some { ok := if x.truthy then x else .nil, err := .nil } := by
  obtain ⟨i, hi⟩ := decode_id ord (some (str% "id")) E.f64 id
  have hd : decode ord none (Wire.encResponse E { id := id, payload := p }) =
      some (.map [(str% "jsonrpc", .str (str% "2.0")), (str% "id", i), (str% "result", x)]) := by
    unfold Wire.encResponse
    rw [h]
    refine Entries.decode (ks := [str% "jsonrpc", str% "id", str% "result"]) ?_ (by decide) none
    refine .cons ?_ (.cons ?_ (.cons ?_ .nil))
    · rw [field_plain (by decide), decode_str]
    · rw [field_plain (by decide)]
      exact hi
    · rw [field_plain (by decide), hx]
  simp only [answerOf, hd, Option.map_some]
  rfl

theorem decode_error {ord : List Data → List Data} {c : Int} {m : Str} {d : ErrorData} {l : List (Str × Data)}
    (h : Json.all (fun p => (field ord p.1 p.2).map (p.1, ·)) (Wire.encData E d) = some l) :
    decode ord (some (str% "error")) (.obj ([(str% "code", .num ⟨c, 0⟩), (str% "message", .str m)] ++ Wire.encData E d)) =
      some (.map ([(str% "code", .num ⟨c, 0⟩), (str% "message", .str m)] ++ l)) := by
  refine Entries.decode (ks := [str% "code", str% "message", str% "data"]) ?_ (by decide) _
  refine .append (ks := [str% "code", str% "message"]) (.cons ?_ (.cons ?_ .nil)) ⟨h, ?_⟩
  · rw [field_plain (by decide), decode_num]
  · rw [field_plain (by decide), decode_str]
  · cases d <;> simp [Wire.encData]

/-- The client reads an error. -/
theorem answer_error {ord : List Data → List Data} {id : Option Id} {c : Int} {m : Str} {d : ErrorData} {l : List (Str × Data)}
    (h : Json.all (fun p => (field ord p.1 p.2).map (p.1, ·)) (Wire.encData E d) = some l) :
    answerOf ord (some (Wire.encResponse E { id := id, payload := .error c m d })) =
      some { ok := .nil, err := .map ([(str% "code", .num ⟨c, 0⟩), (str% "message", .str m)] ++ l) } := by
  obtain ⟨i, hi⟩ := decode_id ord (some (str% "id")) E.f64 id
  have hd : decode ord none (Wire.encResponse E { id := id, payload := .error c m d }) =
      some (.map [(str% "jsonrpc", .str (str% "2.0")), (str% "id", i),
        (str% "error", .map ([(str% "code", .num ⟨c, 0⟩), (str% "message", .str m)] ++ l))]) := by
    unfold Wire.encResponse
    refine Entries.decode (ks := [str% "jsonrpc", str% "id", str% "error"]) ?_ (by decide) none
    refine .cons ?_ (.cons ?_ (.cons ?_ .nil))
    · rw [field_plain (by decide), decode_str]
    · rw [field_plain (by decide)]
      exact hi
    · rw [field_plain (by decide), decode_error h]
  simp only [answerOf, hd, Option.map_some]
  rfl

theorem decode_labelled {ord : List Data → List Data} (key : Option Str) (x : Str × Span) (hk : isSetKey key = false) :
    decode ord key (Wire.encLabelled x) = some (ofLabelled x) := by
  obtain ⟨s, sp⟩ := x
  simp only [decode, Wire.encLabelled, ofJson, hk, ofJsons]
  rfl

theorem decode_report {ord : List Data → List Data} (key : Option Str) (r : Report) :
    decode ord key (Wire.encReport r) = some (ofReport r) := by
  refine Entries.decode (ks := [str% "message", str% "reason", str% "span"] ++ [str% "contexts"] ++ [str% "related"] ++ [str% "annotation"])
    (.append (.append (.append (.cons ?_ (.cons ?_ (.cons ?_ .nil))) (.opt fun l _ => ?_)) (.opt fun l _ => ?_)) (.opt fun s _ => ?_))
    (by decide) key
  · rw [field_plain (by decide), decode_str]
  · rw [field_plain (by decide), decode_str]
  · rw [field_plain (by decide), decode_span rfl]
  · rw [field_plain (by decide)]
    exact decode_list rfl fun x _ => decode_labelled none x rfl
  · rw [field_plain (by decide)]
    exact decode_list rfl fun x _ => decode_labelled none x rfl
  · rw [field_plain (by decide), decode_str]

theorem decode_element {ord : List Data → List Data} {key : Option Str} (hk : isSetKey key = false) (e : ElementIdx) :
    decode ord key (Wire.encElement e) = some (ofElement e) := by
  obtain ⟨i, j⟩ := e
  cases j <;>
    simp [decode, Wire.encElement, ofElement, Json.nat, ofNat, ofJson, ofJsons, hk, convertValues, convertAll]

theorem decode_indexed {ord : List Data → List Data} (key : Option Str) (r : IndexedReport) :
    decode ord key (Wire.encIndexed E r) = some (ofIndexed E r) := by
  refine Entries.decode (ks := [str% "reason", str% "idx"] ++ [str% "related"] ++ [str% "annotation"])
    (.append (.append (.cons ?_ (.cons ?_ .nil)) (.opt fun l _ => ?_)) (.opt fun s _ => ?_)) (by decide) key
  · rw [field_plain (by decide), decode_str]
  · rw [field_plain (by decide), decode_element rfl]
  · rw [field_plain (by decide)]
    exact decode_list rfl fun x _ => decode_element rfl x
  · rw [field_plain (by decide), decode_str]

/-- The client reads reports with spans. -/
theorem answer_reports (ord : List Data → List Data) (id : Option Id) (l : List Report) :
    (answerOf ord (some (Wire.encResponse E (Server.errorReports id l)))).map mapError =
      some { spanned := .vec (l.map ofReport) } := by
  rw [Server.errorReports, answer_error (l := [(str% "data", .vec (l.map ofReport))])]
  · rfl
  · simp only [Wire.encData, Json.all, field_plain (k := str% "data") (by decide)]
    rw [decode_list rfl fun x _ => decode_report none x]
    rfl

/-- The client reads reports with positions. -/
theorem answer_indexed (ord : List Data → List Data) (id : Option Id) (l : List IndexedReport) :
    (answerOf ord (some (Wire.encResponse E (Server.indexedErrorReports id l)))).map mapError =
      some { indexed := .vec (l.map (ofIndexed E)) } := by
  rw [Server.indexedErrorReports, answer_error (l := [(str% "data", .vec (l.map (ofIndexed E)))])]
  · rfl
  · simp only [Wire.encData, Json.all, field_plain (k := str% "data") (by decide)]
    rw [decode_list rfl fun x _ => decode_indexed none x]
    rfl

/-- The client reads another error. -/
theorem answer_other (ord : List Data → List Data) (id : Option Id) (c : Int) (m : Str) :
    answerOf ord (some (Wire.encResponse E (Server.otherError id c m))) =
      some { ok := .nil, err := .map [(str% "code", .num ⟨c, 0⟩), (str% "message", .str m)] } :=
  answer_error rfl

end Clj
end Limabean
