/-
The booked directives are an image of the input directives.
-/
import Verif.Proofs.Holdings

namespace Limabean

open Spec

variable {L : BookLib}

theorem Spec.Image.snoc_single {n : Nat} {rs : List Raw.Directive} {bs : List Booked.Directive} (h : Image n rs bs)
    {raw : Raw.Directive} {b : Booked.Directive} (hp : isPad raw = false) (he : Envelope (n + rs.length) raw b)
    (hc : CarriesOver raw.variant b.variant) : Image n (rs ++ [raw]) (bs ++ [b]) := by
  induction h with
  | nil n => exact .single hp (by simpa using he) hc (.nil _)
  | single h1 h2 h3 _ ih =>
    exact .single h1 h2 h3 (ih (by convert he using 1; simp; omega))
  | padded h1 h2 h3 h4 h5 _ ih =>
    exact .padded h1 h2 h3 h4 h5 (ih (by convert he using 1; simp; omega))

theorem Spec.Image.snoc_padded {n : Nat} {rs : List Raw.Directive} {bs : List Booked.Directive} (h : Image n rs bs)
    {raw : Raw.Directive} {b b' : Booked.Directive} (hp : isPad raw = true) (he : Envelope (n + rs.length) raw b)
    (hc : CarriesOver raw.variant b.variant) (he' : Envelope (n + rs.length) raw b')
    (ht : ∃ t, b'.variant = .transaction t ∧ t.payee = none ∧ t.narration = none) :
    Image n (rs ++ [raw]) (bs ++ [b, b']) := by
  induction h with
  | nil n => exact .padded hp (by simpa using he) hc (by simpa using he') ht (.nil _)
  | single h1 h2 h3 _ ih =>
    exact .single h1 h2 h3 (ih (by convert he using 1; simp; omega) (by convert he' using 1; simp; omega))
  | padded h1 h2 h3 h4 h5 _ ih =>
    exact .padded h1 h2 h3 h4 h5 (ih (by convert he using 1; simp; omega) (by convert he' using 1; simp; omega))

/-- Filling the transaction after a pad keeps the image. -/
theorem Spec.Image.fill {n : Nat} {rs : List Raw.Directive} {bs : List Booked.Directive} (h : Image n rs bs)
    {i : Nat} {d d2 : Booked.Directive} {p : Raw.Pad} {t : Booked.Transaction} (ps : List Booked.Posting)
    (hd : bs[i]? = some d) (hp : d.variant = .pad p) (hd2 : bs[i+1]? = some d2) (ht : d2.variant = .transaction t) :
    Image n rs (bs.set (i+1) (d2.withPostings t ps)) := by
  induction h generalizing i with
  | nil n => simp at hd
  | @single n raw b rs bs h1 h2 h3 h4 ih =>
    cases i with
    | zero =>
      simp only [List.getElem?_cons_zero, Option.some.injEq] at hd
      subst hd
      rw [hp] at h3
      generalize hv : raw.variant = rv at h3
      cases h3
      simp [isPad, hv] at h1
    | succ i =>
      simp only [List.getElem?_cons_succ] at hd hd2
      simp only [List.set_cons_succ]
      exact .single h1 h2 h3 (ih hd hd2)
  | @padded n raw b b' rs bs h1 h2 h3 h4 h5 h6 ih =>
    cases i with
    | zero =>
      simp only [List.getElem?_cons_succ, List.getElem?_cons_zero, Option.some.injEq] at hd hd2
      subst hd hd2
      simp only [List.set_cons_succ, List.set_cons_zero]
      obtain ⟨t', ht', hpay, hnar⟩ := h5
      rw [ht] at ht'
      cases ht'
      exact .padded h1 h2 h3 ⟨h4.1, h4.2, h4.3, h4.4, h4.5⟩ ⟨_, rfl, hpay, hnar⟩ h6
    | succ i =>
      cases i with
      | zero =>
        simp only [List.getElem?_cons_succ, List.getElem?_cons_zero, Option.some.injEq] at hd
        subst hd
        obtain ⟨t', ht', -⟩ := h5
        rw [hp] at ht'
        cases ht'
      | succ i =>
        simp only [List.getElem?_cons_succ] at hd hd2
        simp only [List.set_cons_succ]
        exact .padded h1 h2 h3 h4 h5 (ih hd hd2)

theorem mkBooked_envelope (n : Nat) (raw : Raw.Directive) (v : Booked.Variant) : Envelope n raw (mkBooked n raw v) :=
  ⟨rfl, rfl, rfl, rfl, rfl⟩

theorem plainVariant_carries {w : Raw.Variant} {v : Booked.Variant} (h : plainVariant w = some v) : CarriesOver w v := by
  cases w <;> simp [plainVariant] at h <;> subst h <;> constructor

theorem plainVariant_not_pad {raw : Raw.Directive} {v : Booked.Variant} (h : plainVariant raw.variant = some v) :
    isPad raw = false := by
  unfold isPad
  cases hw : raw.variant <;> simp [hw, plainVariant] at h ⊢

/-- An accepted step extends the image. -/
theorem image_step {env : Env L} {pre : List Raw.Directive} {raw : Raw.Directive} {r : Run L} {st' : State L}
    {v : Booked.Variant} {v2 : Option Booked.Variant} {bk : List Booked.Directive}
    (hd : r.st.directive env raw { directive := pre.length } r.booked = .ok st' (v, v2, bk))
    (h : Image 0 pre r.booked) :
    Image 0 (pre ++ [raw]) (bk ++ [mkBooked pre.length raw v] ++ (v2.map (mkBooked pre.length raw)).toList) := by
  have env1 : ∀ v, Envelope (0 + pre.length) raw (mkBooked pre.length raw v) := by
    intro v; rw [Nat.zero_add]; exact mkBooked_envelope _ _ _
  rcases State.directive_ok hd with ⟨t, hv, ht, rfl, rfl⟩ | ⟨b, hv, hb, rfl⟩ | ⟨o, hv, ho, rfl, rfl⟩ |
    ⟨cl, hv, hc, rfl, rfl⟩ | ⟨p, v', hv, hp, rfl, rfl⟩ | ⟨hpl, rfl, rfl, rfl⟩
  · obtain ⟨q, -, -, -, rfl⟩ := State.transaction_ok ht
    simpa using h.snoc_single (by simp [isPad, hv]) (env1 _) (by rw [hv]; exact .transaction t _)
  · have hbk : Image 0 pre bk ∧ ∃ y : Booked.Balance, v = .balance y ∧ y.raw = b := by
      obtain ⟨a, -, -, -, hcase⟩ := State.balance_ok hb
      rcases hcase with ⟨-, -, rfl, rfl⟩ | ⟨m, -, -, -, rfl, rfl⟩ | ⟨m, i, e0, -, -, hf⟩
      · exact ⟨h, _, rfl, rfl⟩
      · exact ⟨h, _, rfl, rfl⟩
      · obtain ⟨d, p, d2, t, src, h1, h2, h3, h4, rfl, -, -, rfl⟩ := State.fillPad_ok hf
        exact ⟨h.fill _ h1 h2 h3 h4, _, rfl, rfl⟩
    obtain ⟨hbk, y, rfl, rfl⟩ := hbk
    simpa using hbk.snoc_single (by simp [isPad, hv]) (env1 _) (by rw [hv]; exact .balance y)
  · obtain ⟨-, -, rfl, -⟩ := State.opn_ok ho
    simpa using h.snoc_single (by simp [isPad, hv]) (env1 _) (by rw [hv]; exact .opn o)
  · obtain ⟨-, -, rfl, -⟩ := State.close_ok hc
    simpa using h.snoc_single (by simp [isPad, hv]) (env1 _) (by rw [hv]; exact .close cl)
  · obtain ⟨a, -, -, -, -, rfl, rfl⟩ := State.pad_ok hp
    have := h.snoc_padded (b := mkBooked pre.length raw (.pad p))
      (b' := mkBooked pre.length raw (.transaction { flag := padFlag, postings := [] }))
      (by simp [isPad, hv]) (env1 _) (by rw [hv]; exact .pad p) (env1 _) ⟨_, rfl, rfl, rfl⟩
    simpa using this
  · simpa using h.snoc_single (plainVariant_not_pad hpl) (env1 _) (plainVariant_carries hpl)

theorem errors_nil_of_step {n : Nat} {env : Env L} {raw : Raw.Directive} {r r' : Run L}
    (hs : r.step env n raw = some r') (he : r'.errors = []) :
    r.errors = [] ∧ ∃ st' v v2 bk, r.st.directive env raw { directive := n } r.booked = .ok st' (v, v2, bk) ∧
      balanceErrors st' { directive := n } bk v = some [] ∧
      r' = { st := st', booked := bk ++ [mkBooked n raw v] ++ (v2.map (mkBooked n raw)).toList, errors := [] } := by
  rcases Run.step_some hs with ⟨st', x, hd, rfl⟩ | ⟨st', v, v2, bk, errs, hd, hbe, rfl⟩
  · simp at he
  · simp only [List.append_eq_nil_iff] at he
    obtain ⟨h1, rfl⟩ := he
    exact ⟨h1, st', v, v2, bk, hd, hbe, by simp [h1]⟩

theorem image_loop {env : Env L} {ds : List Raw.Directive} {r : Run L}
    (h : Run.loop env 0 ds {} = some r) (he : r.errors = []) : Image 0 ds r.booked := by
  refine Run.loop_induction env (fun pre r => r.errors = [] → Image 0 pre r.booked) (fun _ => .nil 0) ?_ h he
  intro pre raw r r' hp hs he
  obtain ⟨h0, st', v, v2, bk, hd, -, rfl⟩ := errors_nil_of_step hs he
  exact image_step hd (hp h0)

/-- What success means for the run. -/
theorem collect_success {env : Env L} {ds : List Raw.Directive} {out : List Booked.Directive}
    {w : List IndexedReport} (h : collect env ds = .success out w) :
    ∃ r, Run.loop env 0 ds {} = some r ∧ r.errors = [] ∧ r.st.leftOverPads env = [] ∧ r.booked = out ∧
      r.st.warnings = w := by
  unfold collect at h
  cases hl : Run.loop env 0 ds {} with
  | none => simp [hl] at h
  | some r =>
    simp only [hl, Run.validate] at h
    split at h
    · rename_i hemp
      simp only [List.isEmpty_iff, List.append_eq_nil_iff] at hemp
      simp only [Outcome.success.injEq] at h
      exact ⟨r, rfl, hemp.1, hemp.2, h.1, h.2⟩
    · cases h

theorem collect_failure {env : Env L} {ds : List Raw.Directive} {es : List IndexedReport}
    (h : collect env ds = .failure es) :
    ∃ r, Run.loop env 0 ds {} = some r ∧ es = r.errors ++ r.st.leftOverPads env ∧ es ≠ [] := by
  unfold collect at h
  cases hl : Run.loop env 0 ds {} with
  | none => simp [hl] at h
  | some r =>
    simp only [hl, Run.validate] at h
    split at h
    · cases h
    · rename_i hemp
      simp only [List.isEmpty_iff] at hemp
      simp only [Outcome.failure.injEq] at h
      exact ⟨r, rfl, h.symm, by rw [← h]; exact hemp⟩

theorem collect_panic {env : Env L} {ds : List Raw.Directive} :
    collect env ds = .panic ↔ Run.loop env 0 ds {} = none := by
  unfold collect
  cases hl : Run.loop env 0 ds {} with
  | none => simp
  | some r =>
    simp only [Run.validate, reduceCtorEq, iff_false]
    split <;> simp

theorem leftOverPads_nil {env : Env L} (hf : env.Fair) {st : State L} :
    st.leftOverPads env = [] ↔ ∀ ka ∈ st.accounts, ka.2.pad = none := by
  unfold State.leftOverPads
  rw [List.filterMap_eq_nil_iff]
  constructor
  · intro h ka hka
    have := h ka ((hf st.accounts).mem_iff.2 hka)
    simpa using this
  · intro h ka hka
    simpa using h ka ((hf st.accounts).mem_iff.1 hka)

end Limabean
