/-
Where reports come from.
-/
import Verif.Proofs.Refine

namespace Limabean

open Spec

variable {L : BookLib}

theorem step_of_ok {env : Env L} {n : Nat} {raw : Raw.Directive} {r : Run L} {st : State L} {v : Booked.Variant}
    (h : r.st.directive env raw { directive := n } r.booked = .ok st (v, none, r.booked)) (hv : ∀ b, v ≠ .balance b) :
    r.step env n raw = some { st := st, booked := r.booked ++ [mkBooked n raw v], errors := r.errors } := by
  have : balanceErrors st { directive := n } r.booked v = some [] := by
    cases v <;> first | rfl | exact absurd rfl (hv _)
  simp [Run.step, h, this]

theorem step_of_err {env : Env L} {n : Nat} {raw : Raw.Directive} {r : Run L} {st : State L} {x : IndexedReport}
    (h : r.st.directive env raw { directive := n } r.booked = .err st x) :
    r.step env n raw = some { st := st, booked := r.booked, errors := r.errors ++ [x] } := by
  simp [Run.step, h]

theorem balanceReport_shape {st : State L} {base : Str} {m : Dec} {c : Str} {e : ElementIdx}
    {bk : List Booked.Directive} {rep : IndexedReport} (h : st.balanceReport base m c e bk = some rep) :
    rep.idx = e ∧ rep.related = none ∧ ∃ t, rep.reason = .accumulated t m c := by
  unfold State.balanceReport at h
  split at h
  · cases h
  · split at h
    · cases h
    · split at h
      · simp only [Option.some.injEq] at h
        rw [← h]
        exact ⟨rfl, rfl, _, rfl⟩
      · cases h

/-- The reports recorded with a booked directive. -/
theorem mem_balanceErrors {st : State L} {e : ElementIdx} {bk : List Booked.Directive} {v : Booked.Variant}
    {errs : List IndexedReport} (h : balanceErrors st e bk v = some errs) {rep : IndexedReport} (hr : rep ∈ errs) :
    (∃ b p, v = .balance b ∧ b.unusedPad = some p ∧ rep = p.report .unusedNoAdjustment) ∨
    (∃ b m t, v = .balance b ∧ b.margin = some m ∧ rep.idx = e ∧ rep.related = none ∧
      rep.reason = .accumulated t m b.raw.cur ∧ st.balanceReport b.raw.acc m b.raw.cur e bk = some rep) := by
  cases v with
  | balance bal =>
    unfold balanceErrors at h
    simp only at h
    have e1 : rep ∈ (match bal.unusedPad with | some p => [p.report .unusedNoAdjustment] | none => []) →
        ∃ p, bal.unusedPad = some p ∧ rep = p.report .unusedNoAdjustment := by
      intro h
      cases hu : bal.unusedPad with
      | none => simp [hu] at h
      | some p => simp [hu] at h; exact ⟨p, rfl, h⟩
    cases hm : bal.margin with
    | none =>
      simp only [hm, Option.some.injEq] at h
      subst h
      obtain ⟨p, h1, h2⟩ := e1 hr
      exact Or.inl ⟨bal, p, rfl, h1, h2⟩
    | some m =>
      simp only [hm] at h
      cases hrr : st.balanceReport bal.raw.acc m bal.raw.cur e bk with
      | none => simp [hrr] at h
      | some rr =>
        simp only [hrr, Option.some.injEq] at h
        subst h
        rcases List.mem_append.1 hr with h | h
        · obtain ⟨p, h1, h2⟩ := e1 h
          exact Or.inl ⟨bal, p, rfl, h1, h2⟩
        · simp only [List.mem_singleton] at h
          subst h
          obtain ⟨h1, h2, t, h3⟩ := balanceReport_shape hrr
          exact Or.inr ⟨bal, m, t, rfl, hm, h1, h2, h3, hrr⟩
  | _ => simp only [balanceErrors, Option.some.injEq] at h; subst h; simp at hr

end Limabean
