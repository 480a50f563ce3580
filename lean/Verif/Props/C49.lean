/-
C49: every request gets its own response.
-/
import Verif.Clj.Pod
import Verif.Spec.Server
import Verif.Server.ToyExt
import Verif.Proofs.EncodeLemmas

namespace Limabean

open Clj Spec

variable {E : Ext} {L : BookLib}

namespace Spec

/-- A call of the client: a method and its parameters. -/
abbrev Call := Str × Data

/-- The lines which the client writes for a list of calls, the first with number `id`: each carries its number. -/
def linesOf (F : Front E L) : Nat → List Call → List Json
  | _, [] => []
  | id, (m, p) :: cs => toJson F.ordm (message m p id) :: linesOf F (id + 1) cs

/-- The client makes calls one after the other. -/
def invokeAll (F : Front E L) : Pod E → List Call → Pod E × List (Option Answer)
  | pod, [] => (pod, [])
  | pod, (m, p) :: cs =>
    let r := pod.invoke F m p
    let r' := invokeAll F r.1 cs
    (r'.1, r.2 :: r'.2)

/-- The number of a request. -/
def requestId : Json → Option Json
  | .obj l => (Json.field l (str% "id")).join
  | _ => none

end Spec

theorem linesOf_length (F : Front E L) (id : Nat) (cs : List Call) : (linesOf F id cs).length = cs.length := by
  induction cs generalizing id with
  | nil => rfl
  | cons c cs ih => obtain ⟨m, p⟩ := c; simp [linesOf, ih]

theorem invoke_dead (F : Front E L) {pod : Pod E} (h : pod.server = none) (hw : pod.written = []) (m : Str) (p : Data) :
    pod.invoke F m p = ({ pod with nextId := pod.nextId + 1 }, some { ok := .nil, err := .nil }) := by
  simp [Pod.invoke, Pod.write, h, Pod.read, hw, answerOf]

theorem invokeAll_dead (F : Front E L) (cs : List Call) {pod : Pod E} (h : pod.server = none) (hw : pod.written = []) :
    (invokeAll F pod cs).2 = cs.map fun _ => some { ok := .nil, err := .nil } := by
  induction cs generalizing pod with
  | nil => rfl
  | cons c cs ih =>
    obtain ⟨m, p⟩ := c
    simp only [invokeAll, invoke_dead F h hw, List.map_cons]
    rw [ih (pod := { pod with nextId := pod.nextId + 1 }) h hw]

theorem invokeAll_served (F : Front E L) (cs : List Call) (id n : Nat) (s : Server E) :
    ∃ rs s', Served F.orders n s (((linesOf F (id + 1) cs).take rs.length).map (lineOf E)) rs s' ∧
      (rs.length = cs.length ∨ ∃ line, (linesOf F (id + 1) cs)[rs.length]? = some line ∧
        Server.dispatch E L (F.orders (n + rs.length)) s' (lineOf E line) = none) ∧
      rs.length ≤ cs.length ∧
      (invokeAll F { nextId := id, server := some s, served := n } cs).2 =
        rs.map (fun r => answerOf F.ord (some (Wire.encResponse E r))) ++
          (cs.drop rs.length).map fun _ => some { ok := .nil, err := .nil } := by
  induction cs generalizing id n s with
  | nil => exact ⟨[], s, .nil n s, .inl rfl, le_refl _, rfl⟩
  | cons c cs ih =>
    obtain ⟨m, p⟩ := c
    cases h : Server.dispatch E L (F.orders n) s (lineOf E (toJson F.ordm (message m p (id + 1)))) with
    | none =>
      refine ⟨[], s, .nil n s, .inr ⟨_, rfl, h⟩, by simp, ?_⟩
      have : Pod.invoke F { nextId := id, server := some s, served := n } m p =
          ({ nextId := id + 1, server := none, served := n }, some { ok := .nil, err := .nil }) := by
        simp [Pod.invoke, Pod.write, h, Pod.read, answerOf]
      simp only [invokeAll, this]
      rw [invokeAll_dead F cs rfl rfl]
      simp
    | some x =>
      obtain ⟨s1, r⟩ := x
      obtain ⟨rs, s', h1, h2, h3, h4⟩ := ih (id + 1) (n + 1) s1
      refine ⟨r :: rs, s', ?_, ?_, by simpa using h3, ?_⟩
      · simp only [linesOf, List.length_cons, List.take_succ_cons, List.map_cons]
        exact .cons h h1
      · rcases h2 with h2 | ⟨line, h2, h5⟩
        · exact .inl (by simp [h2])
        · refine .inr ⟨line, by simpa [linesOf] using h2, ?_⟩
          rw [List.length_cons, show n + (rs.length + 1) = n + 1 + rs.length by omega]
          exact h5
      · have : Pod.invoke F { nextId := id, server := some s, served := n } m p =
            ({ nextId := id + 1, server := some s1, served := n + 1 }, answerOf F.ord (some (Wire.encResponse E r))) := by
          simp [Pod.invoke, Pod.write, h, Pod.read]
        simp only [invokeAll, this, h4]
        simp

/-- **C49.** Whatever calls the client makes on a new server: each is answered by the response of the server to just that call, in
the condition that the earlier calls left, for as long as the server lives. The calls after its death, if it dies, get empty answers.
The client never waits for a response which does not come. -/
theorem C49_responses (F : Front E L) (s : Server E) (cs : List Call) :
    ∃ (rs : List Response) (s' : Server E), Served F.orders 0 s (((linesOf F 1 cs).take rs.length).map (lineOf E)) rs s' ∧
      (rs.length = cs.length ∨ ∃ line, (linesOf F 1 cs)[rs.length]? = some line ∧
        Server.dispatch E L (F.orders rs.length) s' (lineOf E line) = none) ∧
      (∀ (k : Nat) r, rs[k]? = some r → (invokeAll F { server := some s } cs).2[k]? = some (answerOf F.ord (some (Wire.encResponse E r)))) ∧
      ∀ k : Nat, rs.length ≤ k → k < cs.length → (invokeAll F { server := some s } cs).2[k]? = some (some { ok := .nil, err := .nil }) := by
  obtain ⟨rs, s', h1, h2, h3, h4⟩ := invokeAll_served F cs 0 0 s
  refine ⟨rs, s', h1, by simpa using h2, fun k r hk => ?_, fun k hk hl => ?_⟩
  · rw [h4]
    obtain ⟨hlt, -⟩ := List.getElem?_eq_some_iff.1 hk
    rw [List.getElem?_append_left (by simpa using hlt), List.getElem?_map, hk]
    rfl
  · rw [h4, List.getElem?_append_right (by simpa using hk), List.getElem?_map, List.length_map, List.getElem?_drop,
      show rs.length + (k - rs.length) = k by omega, List.getElem?_eq_getElem hl]
    rfl

theorem linesOf_id (F : Front E L) (ho : IsMapOrder F.ordm) (cs : List Call) (id k : Nat) (hk : k < cs.length) :
    ((linesOf F id cs)[k]?).bind requestId = some (.num ⟨(id + k : Nat), 0⟩) := by
  induction cs generalizing id k with
  | nil => cases hk
  | cons c cs ih =>
    obtain ⟨m, p⟩ := c
    cases k with
    | zero =>
      simp only [linesOf, List.getElem?_cons_zero, Option.bind_some, message, toJson, requestId, entriesToJson_eq]
      rw [field_perm (by split <;> simp) (ho _)]
      split <;> simp [Json.field, Json.vals, toJson]
    | succ k =>
      have := ih (id + 1) k (by simpa using hk)
      simp only [linesOf, List.getElem?_cons_succ, this]
      congr 3
      omega

/-- **C49**, the numbers of the requests: the `k`-th call is written with number `k`, counting from 1, so they strictly increase and
differ from each other. -/
theorem C49_ids (F : Front E L) (ho : IsMapOrder F.ordm) (cs : List Call) (k : Nat) (hk : k < cs.length) :
    ((linesOf F 1 cs)[k]?).bind requestId = some (.num ⟨(k + 1 : Nat), 0⟩) := by
  have := linesOf_id F ho cs 1 k hk
  rwa [show 1 + k = k + 1 by omega] at this

namespace Ex

/-- A front end for examples: no plugins, a registry which is the number of directives. -/
def front : Front Toy.ext Toy.lib where
  orders _ m := m
  ord := id
  ordm := id
  txt _ := []
  texts := { header := fun _ => [], posting := fun _ => [], directive := fun _ => [] }
  hash := id
  valid _ _ := true
  resolve _ _ := (none, none, none)
  registry ds _ := some (.num ⟨ds.length, 0⟩)

end Ex

/-- Non-vacuity: three calls, the second of them unknown to the server, and what the client reads. -/
example : ((invokeAll Ex.front { server := some (Toy.server []) } [(str% "parser.plugins", .nil), (str% "nonsense", .nil),
      (str% "parser.format-errors", .vec [])]).2.map fun a => a.map fun a => (a.ok, a.err.get (str% "message"))) =
    [some (.vec [], .nil), some (.nil, .str (str% "bad request")), some (.str [], .nil)] := by
  rfl

end Limabean
