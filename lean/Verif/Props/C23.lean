/-
C23: responses carry the id of their request. False as stated: when the beanfile does not parse, the responses to requests
for plugins, directives and options have no id.
-/
import Verif.Spec.Server
import Verif.Props.C27
import Verif.Server.ToyExt

namespace Limabean

open Spec

variable {E : Ext} {L : BookLib}

/-- The beanfile did not parse, and the request is for plugins, directives or options. -/
def IdLost (s : Server E) (r : Request) : Prop :=
  (∃ src es, s = .ready src (.error es)) ∧ r.jsonrpc = str% "2.0" ∧
    (r.method = .plugins ∨ r.method = .directives ∨ r.method = .options)

/-- C23: the response to a well-formed request carries its id, except when the beanfile did not parse and the request is for
plugins, directives or options: then the id is null. The response to anything else has a null id. -/
theorem C23_id_partial (order : AMap Str (Account L) → AMap Str (Account L)) (s s' : Server E) (line : Server.Line)
    (resp : Response) (h : Server.dispatch E L order s line = some (s', resp)) :
    (∀ r, IsRequest line r →
      (¬ IdLost s r → resp.id = r.id) ∧ (IdLost s r → resp.id = none)) ∧
    ((∀ r, ¬ IsRequest line r) → resp.id = none) := by
  cases line with
  | notText => simp [Server.dispatch] at h
  | garbage e =>
    simp only [Server.dispatch, Option.some.injEq, Prod.mk.injEq] at h
    obtain ⟨-, rfl⟩ := h
    refine ⟨?_, fun _ => rfl⟩
    rintro r ⟨j, h1, -⟩
    cases h1
  | json j =>
    simp only [Server.dispatch] at h
    cases hj : Wire.decRequest j with
    | none =>
      rw [hj] at h
      simp only [Option.some.injEq, Prod.mk.injEq] at h
      obtain ⟨-, rfl⟩ := h
      refine ⟨?_, fun _ => rfl⟩
      rintro r ⟨j', h1, h2⟩
      cases h1
      rw [hj] at h2
      cases h2
    | some r =>
      rw [hj] at h
      simp only at h
      refine ⟨?_, fun hn => absurd ⟨j, rfl, hj⟩ (hn r)⟩
      rintro r' ⟨j', h1, h2⟩
      cases h1
      rw [hj] at h2
      cases h2
      unfold Server.answer at h
      by_cases hv : r.jsonrpc = Server.jsonrpcVersion
      swap
      · have hv' : ¬ r.jsonrpc = str% "2.0" := hv
        simp only [hv, ne_eq, not_false_eq_true, if_true, Option.some.injEq, Prod.mk.injEq] at h
        obtain ⟨-, rfl⟩ := h
        simp [IdLost, hv', Server.otherError]
      have hv' : r.jsonrpc = str% "2.0" := hv
      simp only [hv, ne_eq, not_true_eq_false, if_false] at h
      cases s with
      | unreadable m =>
        simp only [Option.some.injEq, Prod.mk.injEq] at h
        obtain ⟨-, rfl⟩ := h
        simp [IdLost, Server.otherError]
      | ready src parsed =>
        simp only [Option.map_eq_some_iff, Prod.exists, Prod.mk.injEq] at h
        obtain ⟨src', resp', h, -, rfl⟩ := h
        cases parsed with
        | ok p =>
          have hc : ¬ IdLost (Server.ready src (.ok p) : Server E) r := by
            rintro ⟨⟨a, b, h⟩, -⟩
            cases h
          refine ⟨fun _ => ?_, fun hl => absurd hl hc⟩
          cases hm : r.method <;> rw [hm] at h <;>
            simp only [Server.healthy, Option.map_eq_some_iff, Option.some.injEq, Prod.mk.injEq, Server.plugins,
              Server.directives, Server.options] at h
          case status => obtain ⟨-, rfl⟩ := h; rfl
          case plugins => obtain ⟨-, rfl⟩ := h; rfl
          case directives => obtain ⟨-, rfl⟩ := h; rfl
          case options => obtain ⟨-, rfl⟩ := h; rfl
          case formatErrors => obtain ⟨t, -, -, rfl⟩ := h; rfl
          case formatWarnings => obtain ⟨t, -, -, rfl⟩ := h; rfl
          case resolveSpans => obtain ⟨t, -, -, rfl⟩ := h; rfl
          case createSpans => obtain ⟨-, rfl⟩ := h; rfl
          case book ds =>
            obtain ⟨t, h, -, rfl⟩ := h
            simp only [Server.bookRequest] at h
            split at h
            · cases h
            · cases h; rfl
            · split at h
              · simp only [Option.map_eq_some_iff] at h
                obtain ⟨l, -, rfl⟩ := h
                rfl
              · cases h; rfl
        | error es =>
          have hc : (∃ src' es', (Server.ready src (.error es) : Server E) = .ready src' (.error es')) := ⟨_, _, rfl⟩
          simp only [IdLost, hc, hv', true_and]
          cases hm : r.method <;> rw [hm] at h <;>
            simp only [Server.healthy, Option.map_eq_some_iff, Option.some.injEq, Prod.mk.injEq, Server.plugins,
              Server.directives, Server.options, Server.bookRequest] at h
          case status => obtain ⟨-, rfl⟩ := h; simp
          case plugins => obtain ⟨-, rfl⟩ := h; simp [Server.errorReports]
          case directives => obtain ⟨-, rfl⟩ := h; simp [Server.errorReports]
          case options => obtain ⟨-, rfl⟩ := h; simp [Server.errorReports]
          case formatErrors => obtain ⟨t, -, -, rfl⟩ := h; simp
          case formatWarnings => obtain ⟨t, -, -, rfl⟩ := h; simp
          case resolveSpans => obtain ⟨t, -, -, rfl⟩ := h; simp
          case createSpans => obtain ⟨-, rfl⟩ := h; simp
          case book ds => obtain ⟨t, rfl, -, rfl⟩ := h; simp [Server.errorReports]

/-- C23: the id of a request is read and written as it was sent, if it is a string without escaped characters or an integer
of 32 bits. -/
theorem C23_id_as_sent (f64 : Int → Dec) :
    (∀ s, PlainName s → (Wire.decId (.str s)).map (Wire.encId f64) = some (.str s)) ∧
    (∀ n : Int, -2 ^ 31 ≤ n → n < 2 ^ 31 → (Wire.decId (.num ⟨n, 0⟩)).map (Wire.encId f64) = some (.num ⟨n, 0⟩)) := by
  refine ⟨fun s h => ?_, fun n h1 h2 => ?_⟩
  · simp [Wire.decId, Wire.borrowable_iff.2 h, Wire.encId]
  · have : -2147483648 ≤ n ∧ n ≤ 2147483647 := by omega
    simp [Wire.decId, this, Wire.encId]

/-- C23: exactly which ids are understood: strings without escaped characters and integers of 64 bits; those of more than 32 bits are
sent back as floating point numbers. -/
theorem C23_ids (f64 : Int → Dec) :
    (∀ j, (∃ i, Wire.decId j = some i) ↔ (∃ s, j = .str s ∧ PlainName s) ∨ ∃ n : Int, j = .num ⟨n, 0⟩ ∧ -2 ^ 63 ≤ n ∧ n < 2 ^ 64) ∧
    (∀ n : Int, -2 ^ 63 ≤ n → n < 2 ^ 64 → ¬ (-2 ^ 31 ≤ n ∧ n < 2 ^ 31) →
      (Wire.decId (.num ⟨n, 0⟩)).map (Wire.encId f64) = some (.num (f64 n))) := by
  have hnum : ∀ n : Int, Wire.decId (.num ⟨n, 0⟩) = if -2147483648 ≤ n ∧ n ≤ 2147483647 then some (.int n)
      else if -9223372036854775808 ≤ n ∧ n ≤ 18446744073709551615 then some (.float n) else none := fun _ => rfl
  constructor
  · intro j
    constructor
    · rintro ⟨i, hi⟩
      unfold Wire.decId at hi
      split at hi
      · split at hi
        · rename_i s hb
          exact Or.inl ⟨s, rfl, Wire.borrowable_iff.1 hb⟩
        · cases hi
      · rename_i m
        right
        refine ⟨m, rfl, ?_⟩
        split at hi
        · omega
        · split at hi
          · omega
          · cases hi
      · cases hi
    · rintro (⟨s, rfl, h⟩ | ⟨n, rfl, h1, h2⟩)
      · exact ⟨.string s, by simp [Wire.decId, Wire.borrowable_iff.2 h]⟩
      · rw [hnum]
        by_cases h : -2147483648 ≤ n ∧ n ≤ 2147483647
        · exact ⟨.int n, by rw [if_pos h]⟩
        · exact ⟨.float n, by rw [if_neg h, if_pos (by omega)]⟩
  · intro n h1 h2 h3
    rw [hnum, if_neg (by omega), if_pos (by omega)]
    rfl

/-- An id which no longer fits. -/
example : Wire.decId (.num ⟨18446744073709551616, 0⟩) = none ∧ (∃ i, Wire.decId (.num ⟨18446744073709551615, 0⟩) = some i) ∧
    Wire.decId (.num ⟨15, 1⟩) = none :=
  ⟨by decide +kernel, ⟨_, rfl⟩, by decide +kernel⟩

/-- C23 as stated is false: with a beanfile that does not parse, a request for the directives is answered without id. -/
theorem C23_id_lost : ¬ ∀ (E : Ext) (L : BookLib) (order : AMap Str (Account L) → AMap Str (Account L)) (s s' : Server E)
    (line : Server.Line) (resp : Response), Server.dispatch E L order s line = some (s', resp) →
    ∀ r, IsRequest line r → resp.id = r.id := by
  intro h
  have := h Toy.ext Toy.lib id Toy.broken _ (Toy.req 7 (str% "parser.directives")) _ rfl
    { jsonrpc := str% "2.0", id := some (.int 7), method := .directives } ⟨_, rfl, by decide +kernel⟩
  simp [Server.directives, Server.errorReports] at this

/-- A booking request on the same beanfile keeps its id. -/
example : ∃ s' resp, Server.dispatch Toy.ext Toy.lib id Toy.broken (Toy.req 7 (str% "book")) = some (s', resp) ∧
    resp.id = some (.int 7) := ⟨_, _, rfl, by decide +kernel⟩

end Limabean
