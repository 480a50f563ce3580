/-
C25: answers do not depend on the request history, apart from the synthetic spans that were created.
-/
import Verif.Spec.Server
import Verif.Server.ToyExt
import Verif.Props.C16

namespace Limabean

open Spec

variable {E : Ext} {L : BookLib}

/-- The line is a request to create synthetic spans. -/
def IsCreate (line : Server.Line) : Prop := ∃ r xs, IsRequest line r ∧ r.method = .createSpans xs

/-- The line is a request for the status, the plugins, the directives or the options, or a booking request. -/
def IsPlain (line : Server.Line) : Prop :=
  ∃ r, IsRequest line r ∧ (r.method = .status ∨ r.method = .plugins ∨ r.method = .directives ∨ r.method = .options ∨
    ∃ ds, r.method = .book ds)

/-- The server without its synthetic spans. -/
def SameLedger : Server E → Server E → Prop
  | .unreadable m, .unreadable m' => m = m'
  | .ready _ p, .ready _ p' => p = p'
  | _, _ => False

theorem SameLedger.refl (s : Server E) : SameLedger s s := by cases s <;> rfl

theorem SameLedger.trans {s s' s'' : Server E} (h : SameLedger s s') (h' : SameLedger s' s'') : SameLedger s s'' := by
  cases s <;> cases s' <;> cases s'' <;> simp_all [SameLedger]

theorem dispatch_ledger {order : AMap Str (Account L) → AMap Str (Account L)} {s s' : Server E} {line : Server.Line}
    {r : Response} (h : Server.dispatch E L order s line = some (s', r)) :
    SameLedger s s' ∧ (¬ IsCreate line → s' = s) := by
  cases line with
  | notText => simp [Server.dispatch] at h
  | garbage e =>
    simp only [Server.dispatch, Option.some.injEq, Prod.mk.injEq] at h
    obtain ⟨rfl, -⟩ := h
    exact ⟨.refl _, fun _ => rfl⟩
  | json j =>
    simp only [Server.dispatch] at h
    cases hj : Wire.decRequest j with
    | none =>
      rw [hj] at h
      simp only [Option.some.injEq, Prod.mk.injEq] at h
      obtain ⟨rfl, -⟩ := h
      exact ⟨.refl _, fun _ => rfl⟩
    | some req =>
      rw [hj] at h
      simp only [Server.answer] at h
      split at h
      · cases h
        exact ⟨.refl _, fun _ => rfl⟩
      · cases s with
        | unreadable m =>
          cases h
          exact ⟨.refl _, fun _ => rfl⟩
        | ready src parsed =>
          simp only [Option.map_eq_some_iff, Prod.exists, Prod.mk.injEq] at h
          obtain ⟨src', resp', h, rfl, rfl⟩ := h
          refine ⟨rfl, fun hc => ?_⟩
          have : src' = src := by
            cases hm : req.method <;> rw [hm] at h <;>
              simp only [Server.healthy, Option.map_eq_some_iff, Option.some.injEq, Prod.mk.injEq] at h
            case status => exact h.1.symm
            case plugins => exact h.1.symm
            case directives => exact h.1.symm
            case options => exact h.1.symm
            case formatErrors => obtain ⟨t, -, h, -⟩ := h; exact h.symm
            case formatWarnings => obtain ⟨t, -, h, -⟩ := h; exact h.symm
            case resolveSpans => obtain ⟨t, -, h, -⟩ := h; exact h.symm
            case createSpans xs => exact absurd ⟨req, xs, ⟨j, rfl, hj⟩, hm⟩ hc
            case book ds => obtain ⟨t, -, h, -⟩ := h; exact h.symm
          rw [this]

theorem served_ledger {orders : Nat → AMap Str (Account L) → AMap Str (Account L)} {n : Nat} {s s' : Server E}
    {lines : List Server.Line} {rs : List Response} (h : Served orders n s lines rs s') :
    SameLedger s s' ∧ ((∀ l ∈ lines, ¬ IsCreate l) → s' = s) := by
  induction h with
  | nil => exact ⟨.refl _, fun _ => rfl⟩
  | cons h t ih =>
    obtain ⟨h1, h2⟩ := dispatch_ledger h
    refine ⟨h1.trans ih.1, fun hc => ?_⟩
    rw [ih.2 fun l hl => hc l (by simp [hl]), h2 (hc _ (by simp))]

theorem all_eq_some {α β : Type} {f : α → Option β} {l : List α} {bs : List β} :
    Json.all f l = some bs ↔ l.map f = bs.map some := by
  induction l generalizing bs with
  | nil => cases bs <;> simp [Json.all]
  | cons a l ih =>
    simp only [Json.all]
    cases hf : f a with
    | none => cases bs <;> simp [hf]
    | some b =>
      cases hl : Json.all f l with
      | none =>
        cases bs with
        | nil => simp
        | cons b' bs' =>
          simp only [List.map_cons, hf, List.cons.injEq, Option.some.injEq, reduceCtorEq, false_iff, not_and]
          intro _ h
          rw [← ih, hl] at h
          cases h
      | some cs =>
        cases bs with
        | nil => simp
        | cons b' bs' =>
          simp only [List.map_cons, hf, List.cons.injEq, Option.some.injEq]
          rw [← ih, hl]
          simp

theorem all_perm {α β : Type} {f : α → Option β} {l l' : List α} (hp : l.Perm l') :
    (Json.all f l = none ∧ Json.all f l' = none) ∨
    ∃ bs bs', Json.all f l = some bs ∧ Json.all f l' = some bs' ∧ bs.Perm bs' := by
  induction hp with
  | nil => exact Or.inr ⟨[], [], rfl, rfl, .refl _⟩
  | cons a _ ih =>
    simp only [Json.all]
    cases f a with
    | none => exact Or.inl ⟨rfl, rfl⟩
    | some b =>
      rcases ih with ⟨h1, h2⟩ | ⟨bs, bs', h1, h2, h3⟩
      · exact Or.inl (by simp [h1, h2])
      · exact Or.inr ⟨b :: bs, b :: bs', by simp [h1], by simp [h2], h3.cons b⟩
  | swap a b l =>
    simp only [Json.all]
    cases f a <;> cases f b <;> cases Json.all f l <;> simp [List.Perm.swap]
  | trans _ _ ih1 ih2 =>
    rcases ih1 with ⟨h1, h2⟩ | ⟨bs, bs', h1, h2, h3⟩
    · rcases ih2 with ⟨h4, h5⟩ | ⟨cs, cs', h4, h5, h6⟩
      · exact Or.inl ⟨h1, h5⟩
      · rw [h2] at h4; cases h4
    · rcases ih2 with ⟨h4, h5⟩ | ⟨cs, cs', h4, h5, h6⟩
      · rw [h2] at h4; cases h4
      · rw [h2] at h4
        cases h4
        exact Or.inr ⟨bs, cs', h1, h5, h3.trans h6⟩

/-- Two results of a request are the same: both kill the server, or both responses are the same. -/
def SameResult : Option (Server E × Response) → Option (Server E × Response) → Prop
  | none, none => True
  | some (_, r), some (_, r') => SameResponse r r'
  | _, _ => False

theorem SameResponse.refl (r : Response) : SameResponse r r := ⟨rfl, Or.inl rfl⟩

theorem book_same (order order' : AMap Str (Account L) → AMap Str (Account L)) (hf : ∀ m, (order m).Perm m)
    (hf' : ∀ m, (order' m).Perm m) (id : Option Id) (ds : Option (List Raw.Directive))
    (parsed : Except (List ParserError) Parsed) :
    match Server.bookRequest E L order id ds parsed, Server.bookRequest E L order' id ds parsed with
    | none, none => True
    | some r, some r' => SameResponse r r'
    | _, _ => False := by
  cases parsed with
  | error es => exact SameResponse.refl _
  | ok p =>
    simp only [Server.bookRequest]
    have h := C16_order_independent L order order' hf hf' (Server.bookOptions p.options) (ds.getD p.directives)
    cases h1 : book L order (Server.bookOptions p.options) (ds.getD p.directives) <;>
      cases h2 : book L order' (Server.bookOptions p.options) (ds.getD p.directives) <;>
      rw [h1, h2] at h <;> simp only [SameOutcome] at h
    case success.success => simp [h.1, SameResponse]
    case failure.failure es es' =>
      have h : es.Perm es' := by
        obtain ⟨a, b, b', rfl, rfl, hb, -⟩ := h
        exact hb.append_left a
      cases ds with
      | some ds => exact ⟨rfl, Or.inr ⟨_, _, _, _, rfl, rfl, h⟩⟩
      | none =>
        simp only [Option.isNone_none, if_true]
        rcases all_perm (f := Server.resolveReport E p.directives) h with ⟨g1, g2⟩ | ⟨bs, bs', g1, g2, g3⟩
        · simp [Server.resolveReports, g1, g2]
        · simp only [Server.resolveReports, Option.getD_none, g1, g2, Option.map_some]
          exact ⟨rfl, Or.inr ⟨_, _, _, _, rfl, rfl, g3⟩⟩
    case panic.panic => trivial

/-- C25: the answer to a request for the status, the plugins, the directives or the options, or to a booking request, is the
same after any history of requests as at the start; for booking errors up to the order of the reports. -/
theorem C25_history (orders : Nat → AMap Str (Account L) → AMap Str (Account L)) (hf : ∀ n m, (orders n m).Perm m)
    (s s' : Server E) (n k : Nat) (history : List Server.Line) (rs : List Response) (h : Served orders n s history rs s')
    (line : Server.Line) (hp : IsPlain line) :
    SameResult (Server.dispatch E L (orders (n + history.length)) s' line) (Server.dispatch E L (orders k) s line) := by
  obtain ⟨hl, -⟩ := served_ledger h
  obtain ⟨r, ⟨j, rfl, hj⟩, hm⟩ := hp
  simp only [Server.dispatch, hj]
  unfold Server.answer
  split
  · exact SameResponse.refl _
  · cases s <;> cases s' <;> simp only [SameLedger] at hl
    case unreadable.unreadable => subst hl; exact SameResponse.refl _
    case ready.ready src p src' p' =>
      subst hl
      rcases hm with hm | hm | hm | hm | ⟨ds, hm⟩ <;> rw [hm] <;> simp only [Server.healthy]
      · exact SameResponse.refl _
      · exact SameResponse.refl _
      · exact SameResponse.refl _
      · exact SameResponse.refl _
      · have := book_same (E := E) (orders (n + history.length)) (orders k) (hf _) (hf _) r.id ds p
        revert this
        cases Server.bookRequest E L (orders (n + history.length)) r.id ds p <;>
          cases Server.bookRequest E L (orders k) r.id ds p <;> simp [SameResult]

/-- C25: requests other than those creating synthetic spans leave the server as it was, so that they change no answer at
all, of whatever kind. -/
theorem C25_unchanged (orders : Nat → AMap Str (Account L) → AMap Str (Account L)) (s s' : Server E) (n : Nat)
    (history : List Server.Line) (rs : List Response) (h : Served orders n s history rs s')
    (hc : ∀ l ∈ history, ¬ IsCreate l) : s' = s :=
  (served_ledger h).2 hc

/-- A history with a created span, and a booking request after it. -/
example : ∃ s' rs, Served (E := Toy.ext) (L := Toy.lib) (fun _ => id) 0 (Toy.server Ex.ledger)
      [Toy.req 1 (str% "parser.create-synthetic-spans")
        [(str% "params", .arr [Wire.encSynthetic ⟨str% "plugin", str% "text"⟩])]] rs s' ∧
    IsPlain (Toy.req 2 (str% "book")) :=
  ⟨_, _, .cons (s' := .ready [(str% "plugin", str% "text")] (.ok ⟨Ex.ledger, Toy.options, []⟩))
      (r := { id := some (.int 1), payload := .spans [⟨0, 0, 4⟩] }) rfl (.nil _ _),
    { jsonrpc := str% "2.0", id := some (.int 2), method := .book none }, ⟨_, rfl, by decide +kernel⟩, by simp⟩

end Limabean
