/-
C13: booking never panics. False as stated: a pad whose source is never opened, when an assertion needs it.
-/
import Verif.Proofs.BalanceStep
import Verif.Proofs.Life
import Verif.Props.Examples

namespace Limabean

open Spec

variable {L : BookLib}

theorem firstPostingError_ne_panic {n : Nat} {bk : List Booked.Directive} {st : State L} (hi : StInv n bk st)
    (e : ElementIdx) (i : Nat) (zs : List (Interpolated × Raw.PostingSpec)) : st.firstPostingError e i zs ≠ .panic := by
  induction zs generalizing i with
  | nil => simp [State.firstPostingError]
  | cons z zs ih =>
    obtain ⟨ip, q⟩ := z
    simp only [State.firstPostingError, State.validateAccountAndCurrency]
    cases hg : st.getValidAccount q.acc { directive := e.directive, posting := some i } with
    | panic =>
      obtain ⟨h1, h2⟩ := State.getValidAccount_panic.1 hg
      unfold AMap.has at h1
      rw [Option.isSome_iff_exists] at h1
      obtain ⟨e', h1⟩ := h1
      obtain ⟨x, hx⟩ := hi.openAcc _ _ h1
      rw [h2] at hx
      cases hx
    | err x => simp
    | ok a =>
      simp only
      cases a.validateCurrency ip.currency { directive := e.directive, posting := some i } with
      | none => exact ih _
      | some x => simp

theorem getValidAccount_ne_panic {n : Nat} {bk : List Booked.Directive} {st : State L} (hi : StInv n bk st)
    (acc : Str) (e : ElementIdx) : st.getValidAccount acc e ≠ .panic := by
  intro hg
  obtain ⟨h1, h2⟩ := State.getValidAccount_panic.1 hg
  unfold AMap.has at h1
  rw [Option.isSome_iff_exists] at h1
  obtain ⟨e', h1⟩ := h1
  obtain ⟨x, hx⟩ := hi.openAcc _ _ h1
  rw [h2] at hx
  cases hx

theorem installInventory_ne_panic {n : Nat} {bk : List Booked.Directive} {st : State L} (hi : StInv n bk st)
    (e : ElementIdx) (us : List (Str × L.Pos)) : State.installInventory e st us ≠ .panic := by
  induction us generalizing st with
  | nil => simp [State.installInventory]
  | cons u us ih =>
    obtain ⟨acc, pos⟩ := u
    simp only [State.installInventory]
    cases hg : st.getValidAccount acc e with
    | panic => exact absurd hg (getValidAccount_ne_panic hi _ _)
    | err x => simp
    | ok a =>
      simp only
      refine ih (st := st.setAccount acc { a with positions := pos }) ?_
      exact hi.sameMeta (SameMeta.setAccount (State.getValidAccount_ok.1 hg).2 ⟨rfl, rfl, rfl, rfl, rfl⟩)

theorem transaction_ne_panic {n : Nat} {bk : List Booked.Directive} {st : State L} (hi : StInv n bk st) (env : Env L)
    (t : Raw.Transaction) (date : Date) (e : ElementIdx) : st.transaction env t date e ≠ .panic := by
  unfold State.transaction State.book
  cases L.book date t.postings env.tolerance st.inventory (st.bookingFor env) with
  | error x => cases x <;> simp
  | ok r =>
    simp only
    cases hf : st.firstPostingError e 0 (r.interpolated.zip t.postings) with
    | panic => exact absurd hf (firstPostingError_ne_panic hi _ _ _)
    | err x => simp
    | ok u =>
      simp only
      cases hin : State.installInventory e st r.updated with
      | panic => exact absurd hin (installInventory_ne_panic hi _ _)
      | err s x => simp
      | ok s u => simp

/-- A step panics only in a balance with a pending pad whose source has no account. -/
theorem step_ne_none {env : Env L} {n : Nat} {raw : Raw.Directive} {r : Run L} (hi : StInv n r.booked r.st)
    (hp : ∀ b a i e d p, raw.variant = .balance b → r.st.accounts.get b.acc = some a → a.pad = some (i, e) →
      r.booked[i]? = some d → d.variant = .pad p → ∃ src, r.st.accounts.get p.source = some src) :
    r.step env n raw ≠ none := by
  cases hv : raw.variant with
  | transaction t =>
    have h := transaction_ne_panic hi env t raw.date { directive := n }
    cases ht : r.st.transaction env t raw.date { directive := n } with
    | panic => exact absurd ht h
    | err s x => simp [Run.step, State.directive, hv, ht, Res.plain]
    | ok s v =>
      obtain ⟨_, -, -, -, rfl⟩ := State.transaction_ok ht
      simp [Run.step, State.directive, hv, ht, Res.plain, balanceErrors]
  | opn o =>
    cases ho : r.st.opn env o { directive := n } with
    | panic => exact absurd ho State.opn_ne_panic
    | err s x => simp [Run.step, State.directive, hv, ho, Res.plain]
    | ok s v =>
      obtain ⟨-, -, rfl, -⟩ := State.opn_ok ho
      simp [Run.step, State.directive, hv, ho, Res.plain, balanceErrors]
  | close c =>
    cases ho : r.st.close c { directive := n } with
    | panic => exact absurd ho State.close_ne_panic
    | err s x => simp [Run.step, State.directive, hv, ho, Res.plain]
    | ok s v =>
      obtain ⟨-, -, rfl, -⟩ := State.close_ok ho
      simp [Run.step, State.directive, hv, ho, Res.plain, balanceErrors]
  | pad p =>
    cases ho : r.st.pad p r.booked.length { directive := n } with
    | panic =>
      obtain ⟨h1, h2⟩ := State.pad_panic ho
      exact absurd (State.getValidAccount_panic.2 ⟨h1, h2⟩) (getValidAccount_ne_panic hi p.acc { directive := n })
    | err s x => simp [Run.step, State.directive, hv, ho]
    | ok s v =>
      obtain ⟨v, v'⟩ := v
      obtain ⟨_, -, -, -, -, rfl, -⟩ := State.pad_ok ho
      simp [Run.step, State.directive, hv, ho, balanceErrors]
  | balance b =>
    cases hg : r.st.getValidAccount b.acc { directive := n } with
    | panic => exact absurd hg (getValidAccount_ne_panic hi _ _)
    | err x => simp [Run.step, State.directive, hv, State.balance, hg]
    | ok a =>
      obtain ⟨ho, ha⟩ := State.getValidAccount_ok.1 hg
      cases hc : a.validateCurrency b.cur { directive := n } with
      | some x => simp [Run.step, State.directive, hv, State.balance, hg, hc]
      | none =>
        obtain ⟨h1, h2, h3⟩ := balance_step (env := env) hi hv ho ha (Account.validateCurrency_none.1 hc)
        cases hm : r.st.marginOf env b with
        | none => rw [h1 hm]; simp
        | some m =>
          cases hpad : a.pad with
          | none =>
            obtain ⟨rep, t, -, -, -, -, hs⟩ := h2 m hm hpad
            rw [hs]; simp
          | some ie =>
            obtain ⟨i, e⟩ := ie
            obtain ⟨d, p, d2, t, k1, k2, k3, k4, k5, k6, -⟩ := hi.pad _ _ _ _ ha hpad
            rw [h3 m i e hm hpad d p d2 t k1 k2 k5 k6]
            obtain ⟨src, hsrc⟩ := hp b a i e d p hv ha hpad k1 k2
            have : ∃ s, (r.st.resetTo b a m r.booked.length).accounts.get p.source = some s := by
              simp only [State.resetTo, State.setAccount, AMap.get_set]
              split
              · exact ⟨_, rfl⟩
              · exact ⟨src, hsrc⟩
            obtain ⟨s, hs⟩ := this
            rw [hs]; simp
  | _ => simp [Run.step, State.directive, hv, balanceErrors]

/-- Booked pads are pads of the input. -/
theorem pads_from_input {env : Env L} {ds : List Raw.Directive} {r : Run L} (h : Run.loop env 0 ds {} = some r) :
    ∀ d ∈ r.booked, ∀ p, d.variant = .pad p → ∃ q ∈ ds, q.variant = .pad p := by
  refine Run.loop_induction env (fun pre r => ∀ d ∈ r.booked, ∀ p, d.variant = .pad p → ∃ q ∈ pre, q.variant = .pad p)
    (by intro d hd; simp at hd) ?_ h
  intro pre raw r r' ih hs
  have old : ∀ d ∈ r.booked, ∀ p, d.variant = .pad p → ∃ q ∈ pre ++ [raw], q.variant = .pad p := by
    intro d hd p hp
    obtain ⟨q, hq, hqp⟩ := ih d hd p hp
    exact ⟨q, List.mem_append_left _ hq, hqp⟩
  rcases Run.step_some hs with ⟨st', x, hd, rfl⟩ | ⟨st', v, v2, bk, errs, hd, hbe, rfl⟩
  · exact old
  · intro d hdm p hpv
    simp only [List.mem_append, List.mem_singleton] at hdm
    rcases State.directive_ok hd with ⟨t, hv', ht, rfl, rfl⟩ | ⟨b', hv', hbal, rfl⟩ | ⟨op, hv', ho, rfl, rfl⟩ |
        ⟨cl, hv', hc, rfl, rfl⟩ | ⟨q, v', hv', hpad, rfl, rfl⟩ | ⟨hpl, rfl, rfl, rfl⟩
    · obtain ⟨_, -, -, -, rfl⟩ := State.transaction_ok ht
      rcases hdm with (hdm | rfl) | hdm
      · exact old d hdm p hpv
      · simp [mkBooked] at hpv
      · simp at hdm
    · obtain ⟨y, hop, hy, hcv, hcase⟩ := State.balance_ok hbal
      rcases hcase with ⟨-, rfl, rfl, rfl⟩ | ⟨m, -, hyp, rfl, rfl, rfl⟩ | ⟨m, i, e0, -, hyp, hf⟩
      · rcases hdm with (hdm | rfl) | hdm
        · exact old d hdm p hpv
        · simp [mkBooked] at hpv
        · simp at hdm
      · rcases hdm with (hdm | rfl) | hdm
        · exact old d hdm p hpv
        · simp [mkBooked] at hpv
        · simp at hdm
      · obtain ⟨d1, q, d2, t, src, h1, h2, h3, h4, rfl, h6, rfl, rfl⟩ := State.fillPad_ok hf
        rcases hdm with (hdm | rfl) | hdm
        · rcases List.mem_or_eq_of_mem_set hdm with hdm | rfl
          · exact old d hdm p hpv
          · simp [Booked.Directive.withPostings] at hpv
        · simp [mkBooked] at hpv
        · simp at hdm
    · obtain ⟨-, -, rfl, -⟩ := State.opn_ok ho
      rcases hdm with (hdm | rfl) | hdm
      · exact old d hdm p hpv
      · simp [mkBooked] at hpv
      · simp at hdm
    · obtain ⟨-, -, rfl, -⟩ := State.close_ok hc
      rcases hdm with (hdm | rfl) | hdm
      · exact old d hdm p hpv
      · simp [mkBooked] at hpv
      · simp at hdm
    · obtain ⟨y, -, hy, hyp, rfl, rfl, rfl⟩ := State.pad_ok hpad
      rcases hdm with (hdm | rfl) | hdm
      · exact old d hdm p hpv
      · simp only [mkBooked, Booked.Variant.pad.injEq] at hpv
        subst hpv
        exact ⟨raw, by simp, hv'⟩
      · simp only [Option.map_some, Option.toList_some, List.mem_singleton] at hdm
        subst hdm
        simp [mkBooked] at hpv
    · rcases hdm with (hdm | rfl) | hdm
      · exact old d hdm p hpv
      · simp only [mkBooked] at hpv
        subst hpv
        cases hrv : raw.variant <;> simp [hrv, plainVariant] at hpl
      · simp at hdm

/-- An account which no directive opens is never opened. -/
theorem life_ne_never_of_open {pre : List Raw.Directive} {acc : Str}
    (h : ∃ x ∈ pre, ∃ o, x.variant = .opn o ∧ o.acc = acc) : life pre acc ≠ .never := by
  induction pre using List.reverseRecOn with
  | nil => simp at h
  | append_singleton pre y ih =>
    rw [life_snoc]
    obtain ⟨x, hx, o, ho, hoa⟩ := h
    rcases List.mem_append.1 hx with hx | hx
    · exact Spec.Life.next_ne_never (ih ⟨x, hx, o, ho, hoa⟩)
    · rw [List.mem_singleton] at hx
      subst hx
      by_cases hn : life pre acc = .never
      · rw [hn, ho]; simp [Life.next, hoa]
      · exact Spec.Life.next_ne_never hn

/-- C13, partial: booking panics only when an assertion follows a pad on its account whose source no earlier directive
opens. Missing from the full statement: that case, which does panic. Also not covered: overflow of decimals. -/
theorem C13_no_panic_partial (L : BookLib) (order : AMap Str (Account L) → AMap Str (Account L)) (o : BookOptions)
    (ds : List Raw.Directive)
    (hds : ∀ pre d post b, ds = pre ++ d :: post → d.variant = .balance b →
      ∀ q ∈ pre, ∀ p, q.variant = .pad p → p.acc = b.acc → ∃ x ∈ pre, ∃ o, x.variant = .opn o ∧ o.acc = p.source) :
    book L order o ds ≠ .panic := by
  have key : ∀ pre post, ds = pre ++ post → Run.loop (envOf L o order) 0 pre {} ≠ none := by
    intro pre
    induction pre using List.reverseRecOn with
    | nil => intro post _; simp [Run.loop]
    | append_singleton pre y ih =>
      intro post hpre
      rw [List.append_assoc, List.singleton_append] at hpre
      have h1 := ih _ hpre
      cases hl : Run.loop (envOf L o order) 0 pre {} with
      | none => exact absurd hl h1
      | some r =>
        have hi := StInv.loop hl
        have hs : r.step (envOf L o order) pre.length y ≠ none := by
          refine step_ne_none hi ?_
          intro b a i e d p hv ha hpad hd hdv
          obtain ⟨q, hq, hqp⟩ := pads_from_input hl d (List.mem_of_getElem? hd) p hdv
          obtain ⟨d', p', -, -, k1, k2, k3, -⟩ := hi.pad _ _ _ _ ha hpad
          rw [hd] at k1
          cases k1
          rw [hdv] at k2
          cases k2
          have hop := hds pre y post b hpre hv q hq p hqp k3
          have hne := life_ne_never_of_open hop
          have hlife := LifeInv.loop hl
          cases hlf : life pre p.source with
          | never => exact absurd hlf hne
          | opn o' => obtain ⟨-, -, -, x, hx, -⟩ := hlife.opn _ _ hlf; exact ⟨x, hx⟩
          | closed o' => obtain ⟨-, -, x, hx, -⟩ := hlife.closed _ _ hlf; exact ⟨x, hx⟩
        cases hst : r.step (envOf L o order) pre.length y with
        | none => exact absurd hst hs
        | some r' =>
          have : Run.loop (envOf L o order) 0 (pre ++ [y]) {} = some r' := Run.loop_snoc.2 ⟨r, hl, by simpa using hst⟩
          rw [this]; simp
  have := key ds [] (by simp)
  unfold book collect
  cases hl : Run.loop (envOf L o order) 0 ds {} with
  | none => exact absurd hl this
  | some r =>
    simp only [Run.validate]
    split <;> simp

/-- The full statement is false: a pad from an account which is never opened, needed by an assertion. -/
theorem C13_panics : ¬ ∀ (L : BookLib) (order : AMap Str (Account L) → AMap Str (Account L)) (o : BookOptions)
    (ds : List Raw.Directive), L.Lawful → (∀ m, (order m).Perm m) → book L order o ds ≠ .panic := by
  intro h
  exact h Toy.lib id {} [Toy.mkOpen 1 Ex.bank, Toy.mkPad 2 Ex.bank Ex.equity, Toy.mkBal 3 Ex.bank ⟨10, 0⟩ Ex.nzd]
    Toy.lib_lawful Ex.fair_id (by decide +kernel)

/-- A case with a pad: the source is opened after the pad but before the assertion. -/
example : book Toy.lib id {} [Toy.mkOpen 1 Ex.bank, Toy.mkPad 2 Ex.bank Ex.equity, Toy.mkOpen 2 Ex.equity,
    Toy.mkBal 3 Ex.bank ⟨10, 0⟩ Ex.nzd] ≠ .panic := by
  refine C13_no_panic_partial Toy.lib id {} _ ?_
  intro pre d post b h hb q hq p hp hacc
  have h4 : pre.length = 3 := by
    rcases pre with _ | ⟨x0, _ | ⟨x1, _ | ⟨x2, _ | ⟨x3, pre⟩⟩⟩⟩ <;> simp at h
    · rw [← h.1] at hb; cases hb
    · rw [← h.2.1] at hb; cases hb
    · rw [← h.2.2.1] at hb; cases hb
    · rfl
  rcases pre with _ | ⟨x0, _ | ⟨x1, _ | ⟨x2, _ | ⟨x3, pre⟩⟩⟩⟩ <;> simp at h h4
  obtain ⟨rfl, rfl, rfl, -⟩ := h
  simp only [List.mem_cons, List.not_mem_nil, or_false] at hq
  rcases hq with rfl | rfl | rfl
  · cases hp
  · cases hp
    exact ⟨Toy.mkOpen 2 Ex.equity, by simp, _, rfl, rfl⟩
  · cases hp

end Limabean
