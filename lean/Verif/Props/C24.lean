/-
C24: the error code of a response identifies its cause.
-/
import Verif.Spec.Server
import Verif.Server.ToyExt
import Verif.Props.Examples

namespace Limabean

open Spec

variable {E : Ext} {L : BookLib}

/-- Booking these directives under the options of the parsed ledger fails. -/
def BookingFails (L : BookLib) (order : AMap Str (Account L) → AMap Str (Account L)) (p : Parsed)
    (ds : List Raw.Directive) : Prop :=
  ∃ es, book L order { bookingMethod := p.options.bookingMethod, tolerance := p.options.tolerance } ds = .failure es

/-- The cause of the error code 2: a beanfile with parse errors, or booking errors on the parsed ledger. -/
def ReportCause (L : BookLib) (order : AMap Str (Account L) → AMap Str (Account L)) :
    Except (List ParserError) Parsed → Method → Prop
  | .error _, m => m = .plugins ∨ m = .directives ∨ m = .options ∨ ∃ ds, m = .book ds
  | .ok p, m => m = .book none ∧ BookingFails L order p p.directives

/-- The cause of the error code 3: booking errors on directives which the client supplied. -/
def IndexedCause (L : BookLib) (order : AMap Str (Account L) → AMap Str (Account L)) :
    Except (List ParserError) Parsed → Method → Prop
  | .error _, _ => False
  | .ok p, m => ∃ ds, m = .book (some ds) ∧ BookingFails L order p ds

theorem healthy_code (order : AMap Str (Account L) → AMap Str (Account L)) (id : Option Id) (src src' : E.Sources)
    (parsed : Except (List ParserError) Parsed) (m : Method) (resp : Response)
    (h : Server.healthy E L order id src parsed m = some (src', resp)) :
    (errorCode resp = none ∨ errorCode resp = some 2 ∨ errorCode resp = some 3) ∧
    (errorCode resp = some 2 ↔ ReportCause L order parsed m) ∧
    (errorCode resp = some 3 ↔ IndexedCause L order parsed m) := by
  cases parsed with
  | error es =>
    cases m <;> simp only [Server.healthy, Option.map_eq_some_iff, Option.some.injEq, Prod.mk.injEq, Server.plugins,
        Server.directives, Server.options, Server.bookRequest] at h
    case status => obtain ⟨-, rfl⟩ := h; simp [errorCode, ReportCause, IndexedCause]
    case plugins => obtain ⟨-, rfl⟩ := h; simp [errorCode, ReportCause, IndexedCause, Server.errorReports, Server.errorReport]
    case directives => obtain ⟨-, rfl⟩ := h; simp [errorCode, ReportCause, IndexedCause, Server.errorReports, Server.errorReport]
    case options => obtain ⟨-, rfl⟩ := h; simp [errorCode, ReportCause, IndexedCause, Server.errorReports, Server.errorReport]
    case formatErrors => obtain ⟨t, -, -, rfl⟩ := h; simp [errorCode, ReportCause, IndexedCause]
    case formatWarnings => obtain ⟨t, -, -, rfl⟩ := h; simp [errorCode, ReportCause, IndexedCause]
    case resolveSpans => obtain ⟨t, -, -, rfl⟩ := h; simp [errorCode, ReportCause, IndexedCause]
    case createSpans => obtain ⟨-, rfl⟩ := h; simp [errorCode, ReportCause, IndexedCause]
    case book ds =>
      obtain ⟨t, rfl, -, rfl⟩ := h
      simp [errorCode, ReportCause, IndexedCause, Server.errorReports, Server.errorReport]
  | ok p =>
    cases m <;> simp only [Server.healthy, Option.map_eq_some_iff, Option.some.injEq, Prod.mk.injEq, Server.plugins,
        Server.directives, Server.options, Server.bookRequest, Server.bookOptions] at h
    case status => obtain ⟨-, rfl⟩ := h; simp [errorCode, ReportCause, IndexedCause]
    case plugins => obtain ⟨-, rfl⟩ := h; simp [errorCode, ReportCause, IndexedCause]
    case directives => obtain ⟨-, rfl⟩ := h; simp [errorCode, ReportCause, IndexedCause]
    case options => obtain ⟨-, rfl⟩ := h; simp [errorCode, ReportCause, IndexedCause]
    case formatErrors => obtain ⟨t, -, -, rfl⟩ := h; simp [errorCode, ReportCause, IndexedCause]
    case formatWarnings => obtain ⟨t, -, -, rfl⟩ := h; simp [errorCode, ReportCause, IndexedCause]
    case resolveSpans => obtain ⟨t, -, -, rfl⟩ := h; simp [errorCode, ReportCause, IndexedCause]
    case createSpans => obtain ⟨-, rfl⟩ := h; simp [errorCode, ReportCause, IndexedCause]
    case book ds =>
      obtain ⟨t, h, -, rfl⟩ := h
      cases ds with
      | none =>
        simp only [Option.getD_none, Option.isNone_none, if_true] at h
        cases hb : book L order { bookingMethod := p.options.bookingMethod, tolerance := p.options.tolerance }
            p.directives with
        | panic => rw [hb] at h; cases h
        | success out w =>
          rw [hb] at h
          cases h
          simp [errorCode, ReportCause, IndexedCause, BookingFails, hb]
        | failure es =>
          rw [hb] at h
          simp only [Option.map_eq_some_iff] at h
          obtain ⟨l, -, rfl⟩ := h
          simp [errorCode, ReportCause, IndexedCause, BookingFails, hb, Server.errorReports, Server.errorReport]
      | some ds =>
        simp only [Option.getD_some, Option.isNone_some, Bool.false_eq_true, if_false] at h
        cases hb : book L order { bookingMethod := p.options.bookingMethod, tolerance := p.options.tolerance } ds with
        | panic => rw [hb] at h; cases h
        | success out w =>
          rw [hb] at h
          cases h
          simp [errorCode, ReportCause, IndexedCause, BookingFails, hb]
        | failure es =>
          rw [hb] at h
          cases h
          simp [errorCode, ReportCause, IndexedCause, BookingFails, hb, Server.indexedErrorReports,
            Server.errorIndexedReport]

/-- C24: which error code a response has, and that there is no other. -/
theorem C24_error_codes (order : AMap Str (Account L) → AMap Str (Account L)) (s s' : Server E) (line : Server.Line)
    (resp : Response) (h : Server.dispatch E L order s line = some (s', resp)) :
    (errorCode resp = some (-32700) ↔ ∀ r, ¬ IsRequest line r) ∧
    (errorCode resp = some (-32600) ↔ ∃ r, IsRequest line r ∧ r.jsonrpc ≠ str% "2.0") ∧
    (errorCode resp = some 1 ↔ ∃ r, IsRequest line r ∧ r.jsonrpc = str% "2.0" ∧ ∃ m, s = .unreadable m) ∧
    (errorCode resp = some 2 ↔ ∃ r, IsRequest line r ∧ r.jsonrpc = str% "2.0" ∧
      ∃ src parsed, s = .ready src parsed ∧ ReportCause L order parsed r.method) ∧
    (errorCode resp = some 3 ↔ ∃ r, IsRequest line r ∧ r.jsonrpc = str% "2.0" ∧
      ∃ src parsed, s = .ready src parsed ∧ IndexedCause L order parsed r.method) ∧
    (∀ c, errorCode resp = some c → c = -32700 ∨ c = -32600 ∨ c = 1 ∨ c = 2 ∨ c = 3) := by
  have uniq : ∀ {j r r'}, Wire.decRequest j = some r → IsRequest (.json j) r' → r' = r := by
    rintro j r r' h1 ⟨j', h2, h3⟩
    cases h2
    rw [h1] at h3
    cases h3
    rfl
  by_cases hn : ∀ r, ¬ IsRequest line r
  · have hc : errorCode resp = some (-32700) := by
      cases line with
      | notText => simp [Server.dispatch] at h
      | garbage e =>
        simp only [Server.dispatch, Option.some.injEq, Prod.mk.injEq] at h
        obtain ⟨-, rfl⟩ := h
        rfl
      | json j =>
        cases hj : Wire.decRequest j with
        | none =>
          simp only [Server.dispatch, hj, Option.some.injEq, Prod.mk.injEq] at h
          obtain ⟨-, rfl⟩ := h
          rfl
        | some r => exact absurd ⟨j, rfl, hj⟩ (hn r)
    exact ⟨iff_of_true hc hn, iff_of_false (by simp [hc]) (by rintro ⟨r, h, -⟩; exact hn r h),
      iff_of_false (by simp [hc]) (by rintro ⟨r, h, -⟩; exact hn r h),
      iff_of_false (by simp [hc]) (by rintro ⟨r, h, -⟩; exact hn r h),
      iff_of_false (by simp [hc]) (by rintro ⟨r, h, -⟩; exact hn r h),
      fun c h => by rw [hc] at h; cases h; simp⟩
  cases line with
  | notText => simp [Server.dispatch] at h
  | garbage e => exact absurd (by rintro r ⟨j, h1, -⟩; cases h1) hn
  | json j =>
    simp only [Server.dispatch] at h
    cases hj : Wire.decRequest j with
    | none => exact absurd (by rintro r ⟨j', h1, h2⟩; cases h1; rw [hj] at h2; cases h2) hn
    | some r =>
      rw [hj] at h
      simp only at h
      have hr : IsRequest (.json j) r := ⟨j, rfl, hj⟩
      have ex : ∀ {P : Request → Prop}, (∃ r', IsRequest (.json j) r' ∧ P r') ↔ P r := by
        intro P
        exact ⟨fun ⟨r', h1, h2⟩ => uniq hj h1 ▸ h2, fun h => ⟨r, hr, h⟩⟩
      have no : ¬ ∀ r', ¬ IsRequest (.json j) r' := fun hn => hn r hr
      simp only [ex, no]
      unfold Server.answer at h
      by_cases hv : r.jsonrpc = Server.jsonrpcVersion
      swap
      · have hv' : ¬ r.jsonrpc = str% "2.0" := hv
        simp only [hv, ne_eq, not_false_eq_true, if_true, Option.some.injEq, Prod.mk.injEq] at h
        obtain ⟨-, rfl⟩ := h
        simp [hv', Server.otherError, errorCode, Server.errorInvalidRequest]
      have hv' : r.jsonrpc = str% "2.0" := hv
      simp only [hv, ne_eq, not_true_eq_false, if_false] at h
      cases s with
      | unreadable m =>
        simp only [Option.some.injEq, Prod.mk.injEq] at h
        obtain ⟨-, rfl⟩ := h
        simp [hv', Server.otherError, errorCode, Server.errorBeanfileIo]
      | ready src parsed =>
        simp only [Option.map_eq_some_iff, Prod.exists, Prod.mk.injEq] at h
        obtain ⟨src', resp', h, -, rfl⟩ := h
        obtain ⟨g1, g2, g3⟩ := healthy_code order r.id src src' parsed r.method resp' h
        simp only [hv', true_and, ne_eq, not_true_eq_false]
        have e1 : ∀ {P : E.Sources → Except (List ParserError) Parsed → Prop},
            (∃ a b, (Server.ready src parsed : Server E) = .ready a b ∧ P a b) ↔ P src parsed := by
          intro P
          exact ⟨fun ⟨a, b, h1, h2⟩ => by cases h1; exact h2, fun h => ⟨_, _, rfl, h⟩⟩
        rw [e1, e1, g2, g3]
        rcases g1 with g | g | g <;> simp [g] <;> try simp_all

/-- The five codes occur. -/
example :
    ((Server.dispatch Toy.ext Toy.lib id (Toy.server Ex.ledger) (.garbage [])).map fun x => errorCode x.2) =
      some (some (-32700)) ∧
    ((Server.dispatch Toy.ext Toy.lib id (.unreadable []) (Toy.req 1 (str% "status"))).map fun x => errorCode x.2) =
      some (some 1) ∧
    ((Server.dispatch Toy.ext Toy.lib id Toy.broken (Toy.req 1 (str% "book"))).map fun x => errorCode x.2) =
      some (some 2) ∧
    ((Server.dispatch Toy.ext Toy.lib id (Toy.server Ex.ledger) (Toy.req 1 (str% "book")
      [(str% "params", .arr [Wire.encDirective (Toy.mkClose 1 Ex.bank)])])).map fun x => errorCode x.2) =
      some (some 3) ∧
    ((Server.dispatch Toy.ext Toy.lib id (Toy.server Ex.ledger) (Toy.req 1 (str% "book"))).map fun x => errorCode x.2) =
      some none := by
  decide +kernel

end Limabean
