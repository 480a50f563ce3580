/-
Pads of a run without reports: each is pending until the next balance on its account, which fills its transaction.
-/
import Verif.Proofs.Extend

namespace Limabean

open Spec

variable {L : BookLib}

/-- A pad stays pending unless there is a balance on its account. -/
theorem padOf_persists {env : Env L} {n : Nat} {raw : Raw.Directive} {r r' : Run L}
    (hi : StInv n r.booked r.st) (hs : r.step env n raw = some r') (he : r'.errors = []) {a : Str}
    {ie : Nat × ElementIdx} (hp : r.st.padOf a = some ie) (hb : ∀ b, raw.variant = .balance b → b.acc ≠ a) :
    r'.st.padOf a = some ie := by
  obtain ⟨he0, st', v, v2, bk, hd, -, rfl⟩ := errors_nil_of_step hs he
  simp only
  rcases State.directive_ok hd with ⟨t, hv, ht, rfl, rfl⟩ | ⟨b, hv, hbal, rfl⟩ | ⟨op, hv, ho, rfl, rfl⟩ |
      ⟨cl, hv, hc, rfl, rfl⟩ | ⟨p, v', hv, hpad, rfl, rfl⟩ | ⟨hpl, rfl, rfl, rfl⟩
  · obtain ⟨q, -, -, hin, -⟩ := State.transaction_ok ht
    rw [State.padOf_sameMeta (State.installInventory_sameMeta (Or.inl hin))]
    exact hp
  · have hne := hb b hv
    obtain ⟨y, hop, hy, -, ⟨-, rfl, -, rfl⟩ | ⟨m, -, hyp, rfl, -, rfl⟩ | ⟨m, i, e0, -, hyp, hf⟩⟩ := State.balance_ok hbal
    · rw [State.padOf_setAccount, if_neg hne]; exact hp
    · rw [State.resetTo, State.padOf_setAccount, if_neg hne]; exact hp
    · obtain ⟨d, p, d2, t, src, h1, h2, h3, h4, rfl, h6, rfl, rfl⟩ := State.fillPad_ok hf
      have hres : (r.st.resetTo b y m r.booked.length).padOf a = some ie := by
        rw [State.resetTo, State.padOf_setAccount, if_neg hne]; exact hp
      rw [State.padOf_setAccount]
      split
      · rename_i hsa
        subst hsa
        obtain ⟨x, hx, hxp⟩ := State.padOf_some.1 hres
        rw [h6] at hx
        cases hx
        exact hxp
      · exact hres
  · obtain ⟨h1, h2, -, -, -, h5⟩ := State.opn_ok ho
    obtain ⟨x, hx, hxp⟩ := State.padOf_some.1 hp
    have hne : op.acc ≠ a := by
      rintro rfl
      rcases hi.acc _ _ hx with ⟨e, he⟩ | ⟨e, he⟩
      · simp [h1] at he
      · simp [h2] at he
    exact State.padOf_some.2 ⟨x, by rw [h5, AMap.get_set, if_neg hne]; exact hx, hxp⟩
  · obtain ⟨-, -, -, rfl⟩ := State.close_ok hc
    exact hp
  · obtain ⟨y, -, hy, hyp, rfl, -, -⟩ := State.pad_ok hpad
    obtain ⟨x, hx, hxp⟩ := State.padOf_some.1 hp
    have hne : p.acc ≠ a := by
      rintro rfl
      rw [hy] at hx
      cases hx
      rw [hyp] at hxp
      cases hxp
    rw [State.padOf_setAccount, if_neg hne]
    exact hp
  · exact hp

/-- Positions of pads are stable. -/
theorem Evolves.pad_stable {r r' : Run L} (h : Evolves r r') {i : Nat} {d : Booked.Directive} {p : Raw.Pad}
    (hd : r.booked[i]? = some d) (hv : d.variant = .pad p) : r'.booked[i]? = some d := by
  have hlt := (List.getElem?_eq_some_iff.1 hd).1
  cases h with
  | append x hb _ => rw [hb, List.getElem?_append_left hlt]; exact hd
  | fill x a j e d2 t src cur m hpad hsrc hd2 ht hb hp =>
    have hne : j + 1 ≠ i := by
      rintro rfl
      rw [hd] at hd2
      cases hd2
      rw [hv] at ht
      cases ht
    rw [hb, List.getElem?_append_left (by simpa using hlt), List.getElem?_set_ne hne]
    exact hd

/-- A balance on the account of a pending pad fills its transaction, or is reported. -/
theorem balance_consumes {env : Env L} {n : Nat} {raw : Raw.Directive} {r r' : Run L} {b : Raw.Balance}
    (hs : r.step env n raw = some r') (he : r'.errors = []) (hv : raw.variant = .balance b) {i : Nat} {e : ElementIdx}
    (hp : r.st.padOf b.acc = some (i, e)) :
    ∃ m d p d2 t, r.st.marginOf env b = some m ∧ r.booked[i]? = some d ∧ d.variant = .pad p ∧
      r.booked[i+1]? = some d2 ∧ d2.variant = .transaction t ∧
      r'.booked = r.booked.set (i+1) (d2.withPostings t (calculateBalancePadPostings b.cur m b.acc p.source)) ++
        [mkBooked n raw (.balance { raw := b })] := by
  obtain ⟨he0, st', v, v2, bk, hd, hbe, rfl⟩ := errors_nil_of_step hs he
  rcases State.directive_ok hd with ⟨t, hv', -⟩ | ⟨b', hv', hbal, rfl⟩ | ⟨op, hv', -⟩ |
    ⟨cl, hv', -⟩ | ⟨p, v', hv', -⟩ | ⟨hpl, -⟩
  · rw [hv'] at hv; cases hv
  rotate_left
  · rw [hv'] at hv; cases hv
  · rw [hv'] at hv; cases hv
  · rw [hv'] at hv; cases hv
  · rw [hv] at hpl; simp [plainVariant] at hpl
  rw [hv'] at hv
  cases hv
  obtain ⟨x, hx, hxp⟩ := State.padOf_some.1 hp
  obtain ⟨y, hop, hy, -, ⟨-, rfl, rfl, rfl⟩ | ⟨m, -, hyp, rfl, -, rfl⟩ | ⟨m, j, e0, hm, hyp, hf⟩⟩ := State.balance_ok hbal
  · rw [hx] at hy; cases hy
    have := (balanceErrors_nil hbe).1
    simp [hxp] at this
  · rw [hx] at hy; cases hy
    rw [hxp] at hyp; cases hyp
  · rw [hx] at hy; cases hy
    rw [hxp] at hyp; cases hyp
    obtain ⟨d, p, d2, t, src, h1, h2, h3, h4, rfl, h6, rfl, rfl⟩ := State.fillPad_ok hf
    exact ⟨m, d, p, d2, t, hm, h1, h2, h3, h4, by simp⟩

/-- In a run without reports, a pad of the input which no balance on its account follows is pending. -/
theorem pending_of_input {env : Env L} {ds : List Raw.Directive} {r : Run L} (h : Run.loop env 0 ds {} = some r)
    (he : r.errors = []) {l m : List Raw.Directive} {d : Raw.Directive} {p : Raw.Pad} (hds : ds = l ++ d :: m)
    (hv : d.variant = .pad p) (hm : ∀ d' ∈ m, ∀ b, d'.variant = .balance b → b.acc ≠ p.acc) :
    ∃ j e x, r.st.padOf p.acc = some (j, e) ∧ r.booked[j]? = some x ∧ x.variant = .pad p ∧ x.idx = l.length := by
  subst hds
  obtain ⟨r1, r2, hl1, hs, hl2, hl3⟩ := loop_split h
  have he2 := loop_errors_nil _ _ _ _ hl3 he
  have hi2 := StInv.loop hl2
  have base : ∃ j e x, r2.st.padOf p.acc = some (j, e) ∧ r2.booked[j]? = some x ∧ x.variant = .pad p ∧
      x.idx = l.length := by
    obtain ⟨he0, st', v, v2, bk, hd, hbe, rfl⟩ := errors_nil_of_step hs he2
    rcases State.directive_ok hd with ⟨t, hv', -⟩ | ⟨b', hv', -⟩ | ⟨op, hv', -⟩ |
      ⟨cl, hv', -⟩ | ⟨p', v', hv', hpad, rfl, rfl⟩ | ⟨hpl, -⟩
    · rw [hv'] at hv; cases hv
    · rw [hv'] at hv; cases hv
    · rw [hv'] at hv; cases hv
    · rw [hv'] at hv; cases hv
    · rw [hv'] at hv
      cases hv
      obtain ⟨y, -, hy, hyp, rfl, rfl, rfl⟩ := State.pad_ok hpad
      exact ⟨r1.booked.length, _, mkBooked l.length d (.pad p), by rw [State.padOf_setAccount, if_pos rfl], by simp, rfl, rfl⟩
    · rw [hv] at hpl; simp [plainVariant] at hpl
  clear hs hl1 hl2 h
  revert r2
  suffices ∀ (m : List Raw.Directive) (n : Nat) (r2 : Run L),
      (∀ d' ∈ m, ∀ b, d'.variant = .balance b → b.acc ≠ p.acc) → Run.loop env n m r2 = some r →
      StInv n r2.booked r2.st → (∃ j e x, r2.st.padOf p.acc = some (j, e) ∧ r2.booked[j]? = some x ∧
        x.variant = .pad p ∧ x.idx = l.length) →
      ∃ j e x, r.st.padOf p.acc = some (j, e) ∧ r.booked[j]? = some x ∧ x.variant = .pad p ∧ x.idx = l.length by
    intro r2 hl3 he2 hi2 hb
    exact this m (l.length + 1) r2 hm hl3 (by simpa using hi2) hb
  intro m
  induction m with
  | nil =>
    intro n r2 _ hl _ hb
    simp only [Run.loop, Option.some.injEq] at hl
    subst hl
    exact hb
  | cons d' m ih =>
    intro n r2 hm hl hi hb
    simp only [Run.loop] at hl
    cases hst : r2.step env n d' with
    | none => simp [hst] at hl
    | some r3 =>
      simp only [hst] at hl
      refine ih (n+1) r3 (fun x hx => hm x (List.mem_cons_of_mem _ hx)) hl (hi.step hst) ?_
      obtain ⟨j, e, x, h1, h2, h3, h4⟩ := hb
      have he3 := loop_errors_nil _ _ _ _ hl he
      exact ⟨j, e, x, padOf_persists hi hst he3 h1 (hm d' (by simp)), (Evolves.step hi hst).pad_stable h2 h3, h3, h4⟩

/-- Each booked pad is pending, or its transaction is filled. -/
def FilledInv (r : Run L) : Prop :=
  r.errors = [] → ∀ (i : Nat) d p, r.booked[i]? = some d → d.variant = .pad p →
    (∃ e, r.st.padOf p.acc = some (i, e)) ∨
    ∃ d2 t cur m, r.booked[i+1]? = some d2 ∧
      d2.variant = .transaction t ∧ t.postings = calculateBalancePadPostings cur m p.acc p.source

theorem FilledInv.step {env : Env L} {n : Nat} {raw : Raw.Directive} {r r' : Run L}
    (hi : StInv n r.booked r.st) (h : FilledInv r) (hs : r.step env n raw = some r') : FilledInv r' := by
  intro he i d p hd hv
  have hev := Evolves.step hi hs
  obtain ⟨he0, -⟩ := errors_nil_of_step hs he
  by_cases hlt : i < r.booked.length
  · -- an old position
    have hold : r.booked[i]? = some d := by
      cases hev with
      | append x hb _ => rw [hb, List.getElem?_append_left hlt] at hd; exact hd
      | fill x a j e d2 t src cur m hpad hsrc hd2 ht hb hp =>
        rw [hb, List.getElem?_append_left (by simpa using hlt)] at hd
        by_cases hji : j + 1 = i
        · subst hji
          rw [List.getElem?_set_self hlt] at hd
          cases hd
          simp [Booked.Directive.withPostings] at hv
        · rw [List.getElem?_set_ne hji] at hd; exact hd
    rcases h he0 i d p hold hv with ⟨e, hpad⟩ | ⟨d2, t, cur, m, h1, h2, h3⟩
    · by_cases hb : ∃ b, raw.variant = .balance b ∧ b.acc = p.acc
      · obtain ⟨b, hvb, hba⟩ := hb
        rw [← hba] at hpad
        obtain ⟨m, d', p', d2, t, -, k1, k2, k3, k4, k5⟩ := balance_consumes hs he hvb hpad
        rw [hold] at k1
        cases k1
        rw [hv] at k2
        cases k2
        have hlt2 := (List.getElem?_eq_some_iff.1 k3).1
        right
        refine ⟨d2.withPostings t (calculateBalancePadPostings b.cur m b.acc p.source), _, b.cur, m, ?_, rfl, ?_⟩
        · rw [k5, List.getElem?_append_left (by simpa using hlt2), List.getElem?_set_self hlt2]
        · rw [hba]
      · left
        exact ⟨e, padOf_persists hi hs he hpad (fun b hb' hba => hb ⟨b, hb', hba⟩)⟩
    · right
      have hlt2 := (List.getElem?_eq_some_iff.1 h1).1
      cases hev with
      | append x hb _ => exact ⟨d2, t, cur, m, by rw [hb, List.getElem?_append_left hlt2]; exact h1, h2, h3⟩
      | fill x a j e d2' t' src cur' m' hpad hsrc hd2 ht hb hp =>
        have hne : j + 1 ≠ i + 1 := by
          intro hji
          obtain ⟨f, q, f2, u, g1, g2, g3, g4, g5, g6, g7, g8⟩ := hi.padAt hpad
          rw [hji, h1] at g5
          cases g5
          rw [h2] at g6
          cases g6
          rw [h3] at g7
          simp [calculateBalancePadPostings] at g7
        exact ⟨d2, t, cur, m, by
          rw [hb, List.getElem?_append_left (by simpa using hlt2), List.getElem?_set_ne hne]; exact h1, h2, h3⟩
  · -- a new position
    left
    obtain ⟨-, st', v, v2, bk, hdir, hbe, rfl⟩ := errors_nil_of_step hs he
    simp only at hd ⊢
    rcases State.directive_ok hdir with ⟨t, hv', ht, rfl, rfl⟩ | ⟨b', hv', hbal, rfl⟩ | ⟨op, hv', ho, rfl, rfl⟩ |
      ⟨cl, hv', hc, rfl, rfl⟩ | ⟨p', v', hv', hpad, rfl, rfl⟩ | ⟨hpl, -, rfl, rfl⟩
    case inr.inr.inr.inr.inl =>
      obtain ⟨y, -, hy, hyp, rfl, rfl, rfl⟩ := State.pad_ok hpad
      rw [List.append_assoc, List.getElem?_append_right (by omega)] at hd
      simp only [Option.map_some, Option.toList_some, List.cons_append, List.nil_append] at hd
      rcases hj : i - r.booked.length with _ | _ | k
      · rw [hj] at hd
        simp only [List.getElem?_cons_zero, Option.some.injEq] at hd
        subst hd
        simp only [mkBooked, Booked.Variant.pad.injEq] at hv
        subst hv
        refine ⟨_, by rw [State.padOf_setAccount, if_pos rfl, show i = r.booked.length by omega]⟩
      · rw [hj] at hd
        simp only [Nat.zero_add, List.getElem?_cons_succ, List.getElem?_cons_zero, Option.some.injEq] at hd
        subst hd
        simp [mkBooked] at hv
      · rw [hj] at hd; simp at hd
    all_goals exfalso
    case inr.inl =>
      simp only [Option.map_none, Option.toList_none, List.append_nil] at hd
      have hbk : bk.length = r.booked.length := by
        obtain ⟨y, -, -, -, ⟨-, -, -, rfl⟩ | ⟨m, -, -, -, -, rfl⟩ | ⟨m, k, e0, -, -, hf⟩⟩ := State.balance_ok hbal
        · rfl
        · rfl
        · obtain ⟨d1, p, d2, t, src, -, -, -, -, rfl, -⟩ := State.fillPad_ok hf
          simp
      rw [List.getElem?_append_right (by omega)] at hd
      have hi0 : i - bk.length = 0 := by
        by_contra hne
        rw [List.getElem?_eq_none (by simp; omega)] at hd
        cases hd
      rw [hi0] at hd
      simp only [List.getElem?_cons_zero, Option.some.injEq] at hd
      subst hd
      obtain ⟨y, -, -, -, ⟨-, -, rfl, -⟩ | ⟨m, -, -, -, rfl, -⟩ | ⟨m, k, e0, -, -, hf⟩⟩ := State.balance_ok hbal
      · simp [mkBooked] at hv
      · simp [mkBooked] at hv
      · obtain ⟨d1, p, d2, t, src, -, -, -, -, -, -, -, rfl⟩ := State.fillPad_ok hf
        simp [mkBooked] at hv
    all_goals
      simp only [Option.map_none, Option.toList_none, List.append_nil] at hd
      rw [List.getElem?_append_right (by omega)] at hd
      have hi0 : i - r.booked.length = 0 := by
        by_contra hne
        rw [List.getElem?_eq_none (by simp; omega)] at hd
        cases hd
      rw [hi0] at hd
      simp only [List.getElem?_cons_zero, Option.some.injEq] at hd
      subst hd
      simp only [mkBooked] at hv
      subst hv
    · obtain ⟨q, -, -, -, h⟩ := State.transaction_ok ht
      cases h
    · exact absurd (State.opn_ok ho).2.2.1 (by simp)
    · exact absurd (State.close_ok hc).2.2.1 (by simp)
    · revert hpl; cases raw.variant <;> simp [plainVariant]

theorem FilledInv.loop {env : Env L} {ds : List Raw.Directive} {r : Run L} (h : Run.loop env 0 ds {} = some r) :
    FilledInv r := by
  have := Run.loop_induction env (fun pre r => StInv pre.length r.booked r.st ∧ FilledInv r)
    ⟨StInv.init, by intro _ i d p h; simp at h⟩
    (fun pre raw r r' hp hs => ⟨by simpa using hp.1.step hs, hp.2.step hp.1 hs⟩) h
  exact this.2

end Limabean
