/-
C21: the report of a failed assertion accounts for the gap.

False in general: the accumulated total adds up postings of all currencies (`C21_mixed_currencies`), and starts from the
amount of the previous assertion even if that held within tolerance only (`C21_within_tolerance`).
-/
import Verif.Props.C15
import Verif.Proofs.Refine

namespace Limabean

open Spec

variable {L : BookLib}

/-- Is it a balance on the account? -/
def isBalanceOn (acc : Str) (d : Booked.Directive) : Bool :=
  match d.variant with
  | .balance b => b.raw.acc = acc
  | _ => false

/-- The window of an account ends at its last balance. -/
def WindowInv (bk : List Booked.Directive) (st : State L) : Prop :=
  ∀ acc a, st.accounts.get acc = some a → match a.window with
    | none => ∀ d ∈ bk, isBalanceOn acc d = false
    | some w => (∃ d, bk[w.stop]? = some d ∧ isBalanceOn acc d = true) ∧
        ∀ (i : Nat) d, w.stop < i → bk[i]? = some d → isBalanceOn acc d = false

/-- The window of an account, with the position of a balance just booked. -/
theorem WindowInv.append {bk x : List Booked.Directive} {st : State L} (h : WindowInv bk st)
    (hx : ∀ d ∈ x, ∀ acc, isBalanceOn acc d = false) : WindowInv (bk ++ x) st := by
  intro acc a ha
  have := h acc a ha
  cases hw : a.window with
  | none =>
    simp only [hw] at this ⊢
    intro d hd
    rcases List.mem_append.1 hd with hd | hd
    · exact this d hd
    · exact hx d hd acc
  | some w =>
    simp only [hw] at this ⊢
    obtain ⟨⟨d, h1, h2⟩, h3⟩ := this
    have hlt := (List.getElem?_eq_some_iff.1 h1).1
    refine ⟨⟨d, by rw [List.getElem?_append_left hlt]; exact h1, h2⟩, ?_⟩
    intro i d' hi hd'
    by_cases hi2 : i < bk.length
    · rw [List.getElem?_append_left hi2] at hd'
      exact h3 i d' hi hd'
    · rw [List.getElem?_append_right (by omega)] at hd'
      exact hx d' (List.mem_of_getElem? hd') acc

theorem WindowInv.sameMeta {bk : List Booked.Directive} {st st' : State L} (h : WindowInv bk st)
    (hs : SameMeta st st') : WindowInv bk st' := by
  intro acc a ha
  obtain ⟨a0, ha0, hm⟩ := hs.accounts acc a ha
  have := h acc a0 ha0
  rw [hm.window]
  exact this

theorem WindowInv.setAccount {bk : List Booked.Directive} {st : State L} (h : WindowInv bk st) {k : Str}
    {a a' : Account L} (ha : st.accounts.get k = some a) (hw : a'.window = a.window) :
    WindowInv bk (st.setAccount k a') := by
  intro acc x hx
  simp only [State.setAccount, AMap.get_set] at hx
  split at hx
  · rename_i hk
    subst hk
    cases hx
    rw [hw]
    exact h _ _ ha
  · exact h acc x hx

theorem WindowInv.set {bk : List Booked.Directive} {st : State L} (h : WindowInv bk st) {i : Nat} {d2 d2' : Booked.Directive}
    (hd : bk[i]? = some d2) (h2 : ∀ acc, isBalanceOn acc d2 = false) (h2' : ∀ acc, isBalanceOn acc d2' = false) :
    WindowInv (bk.set i d2') st := by
  intro acc a ha
  have := h acc a ha
  cases hw : a.window with
  | none =>
    simp only [hw] at this ⊢
    intro d hd
    rcases List.mem_or_eq_of_mem_set hd with hd | rfl
    · exact this d hd
    · exact h2' acc
  | some w =>
    simp only [hw] at this ⊢
    obtain ⟨⟨d, h1, hb⟩, h3⟩ := this
    refine ⟨⟨d, ?_, hb⟩, ?_⟩
    · by_cases hi : i = w.stop
      · subst hi
        rw [hd] at h1
        cases h1
        rw [h2 acc] at hb
        cases hb
      · rw [List.getElem?_set_ne hi]; exact h1
    · intro j d' hj hd'
      by_cases hi : i = j
      · subst hi
        have hlt := (List.getElem?_eq_some_iff.1 hd).1
        rw [List.getElem?_set_self hlt] at hd'
        cases hd'
        exact h2' acc
      · rw [List.getElem?_set_ne hi] at hd'
        exact h3 j d' hj hd'

/-- After the window of an account was advanced and its balance booked. -/
theorem WindowInv.advance {bk : List Booked.Directive} {st : State L} (h : WindowInv bk st) {b : Raw.Balance}
    {a' : Account L} (hw : ∃ s, a'.window = some ⟨s, bk.length⟩) {d : Booked.Directive}
    (hd : ∀ acc, isBalanceOn acc d = decide (b.acc = acc)) : WindowInv (bk ++ [d]) (st.setAccount b.acc a') := by
  intro acc x hx
  simp only [State.setAccount, AMap.get_set] at hx
  split at hx
  · rename_i hk
    subst hk
    cases hx
    obtain ⟨s, hw⟩ := hw
    rw [hw]
    refine ⟨⟨d, by simp, by simp [hd]⟩, ?_⟩
    intro i d' hi hd'
    have := (List.getElem?_eq_some_iff.1 hd').1
    simp at this
    simp at hi
    omega
  · rename_i hk
    have := h acc x hx
    have hdn : isBalanceOn acc d = false := by rw [hd]; simpa using hk
    cases hw : x.window with
    | none =>
      simp only [hw] at this ⊢
      intro d' hd'
      rcases List.mem_append.1 hd' with hd' | hd'
      · exact this d' hd'
      · rw [List.mem_singleton] at hd'; rw [hd']; exact hdn
    | some w =>
      simp only [hw] at this ⊢
      obtain ⟨⟨d0, h1, h2⟩, h3⟩ := this
      have hlt := (List.getElem?_eq_some_iff.1 h1).1
      refine ⟨⟨d0, by rw [List.getElem?_append_left hlt]; exact h1, h2⟩, ?_⟩
      intro i d' hi hd'
      by_cases hi2 : i < bk.length
      · rw [List.getElem?_append_left hi2] at hd'
        exact h3 i d' hi hd'
      · rw [List.getElem?_append_right (by omega)] at hd'
        have := List.mem_of_getElem? hd'
        rw [List.mem_singleton] at this
        rw [this]; exact hdn

/-- Balances are booked for existing accounts only. -/
def BalAcc (bk : List Booked.Directive) (st : State L) : Prop :=
  ∀ d ∈ bk, ∀ acc, isBalanceOn acc d = true → ∃ a, st.accounts.get acc = some a

theorem BalAcc.keep {bk x : List Booked.Directive} {st st' : State L} (h : BalAcc bk st)
    (hk : ∀ k a, st.accounts.get k = some a → ∃ a', st'.accounts.get k = some a')
    (hx : ∀ d ∈ x, ∀ acc, isBalanceOn acc d = true → ∃ a, st.accounts.get acc = some a) : BalAcc (bk ++ x) st' := by
  intro d hd acc hb
  have : ∃ a, st.accounts.get acc = some a := by
    rcases List.mem_append.1 hd with hd | hd
    · exact h d hd acc hb
    · exact hx d hd acc hb
  obtain ⟨a, ha⟩ := this
  exact hk acc a ha

theorem keep_setAccount (st : State L) (k' : Str) (y : Account L) :
    ∀ k a, st.accounts.get k = some a → ∃ a', (st.setAccount k' y).accounts.get k = some a' := by
  intro k a ha
  simp only [State.setAccount, AMap.get_set]
  split
  · exact ⟨_, rfl⟩
  · exact ⟨a, ha⟩

theorem BalAcc.step {env : Env L} {n : Nat} {raw : Raw.Directive} {r r' : Run L}
    (h : BalAcc r.booked r.st) (hs : r.step env n raw = some r') : BalAcc r'.booked r'.st := by
  have same : ∀ k a, r.st.accounts.get k = some a → ∃ a', r.st.accounts.get k = some a' := fun _ a h => ⟨a, h⟩
  have meta_ : ∀ {st' : State L}, SameMeta r.st st' → ∀ k a, r.st.accounts.get k = some a →
      ∃ a', st'.accounts.get k = some a' := by
    intro st' hm k a ha
    obtain ⟨a', ha', -⟩ := hm.forward ha
    exact ⟨a', ha'⟩
  rcases Run.step_some hs with ⟨st', x, hd, rfl⟩ | ⟨st', v, v2, bk, errs, hd, -, rfl⟩
  · simp only
    rw [← List.append_nil r.booked]
    refine h.keep ?_ (by simp)
    rcases State.directive_err hd with ⟨t, -, ht⟩ | ⟨b, -, hb⟩ | ⟨o, -, ho⟩ | ⟨c, -, hc⟩ | ⟨p, -, hp⟩
    · rcases State.transaction_err ht with ⟨rfl, -⟩ | ⟨rfl, -⟩ | ⟨q, -, ⟨rfl, -⟩ | ⟨-, hin⟩⟩
      · exact same
      · exact same
      · exact same
      · exact meta_ (State.installInventory_sameMeta (Or.inr ⟨_, hin⟩))
    · rw [(State.balance_err hb).1]; exact same
    · rcases State.opn_err ho with ⟨p, -, rfl, -⟩ | ⟨c, h1, h2, rfl, -⟩
      · exact same
      · exact same
    · rw [(State.close_err hc).1]; exact same
    · rcases State.pad_err hp with ⟨rfl, -⟩ | ⟨a, j, u, -, ha, -, rfl, -⟩
      · exact same
      · exact keep_setAccount _ _ _
  · simp only
    have single : ∀ v, (∀ acc, isBalanceOn acc (mkBooked n raw v) = false) →
        ∀ d ∈ [mkBooked n raw v], ∀ acc, isBalanceOn acc d = true → ∃ a, r.st.accounts.get acc = some a := by
      intro v hv d hd acc hb
      rw [List.mem_singleton] at hd
      subst hd
      rw [hv acc] at hb
      cases hb
    have balance : ∀ (b : Booked.Balance) y, r.st.accounts.get b.raw.acc = some y →
        ∀ d ∈ [mkBooked n raw (.balance b)], ∀ acc, isBalanceOn acc d = true → ∃ a, r.st.accounts.get acc = some a := by
      intro b y hy d hd acc hb
      rw [List.mem_singleton] at hd
      subst hd
      simp only [isBalanceOn, mkBooked, decide_eq_true_eq] at hb
      subst hb
      exact ⟨y, hy⟩
    rcases State.directive_ok hd with ⟨t, hv', ht, rfl, rfl⟩ | ⟨b, hv', hbal, rfl⟩ | ⟨op, hv', ho, rfl, rfl⟩ |
        ⟨cl, hv', hc, rfl, rfl⟩ | ⟨q, v', hv', hpad, rfl, rfl⟩ | ⟨hpl, rfl, rfl, rfl⟩
    · obtain ⟨_, -, -, hin, rfl⟩ := State.transaction_ok ht
      simp only [Option.map_none, Option.toList_none, List.append_nil]
      exact h.keep (meta_ (State.installInventory_sameMeta (Or.inl hin))) (single _ fun _ => rfl)
    · obtain ⟨y, hop, hy, hcv, hcase⟩ := State.balance_ok hbal
      simp only [Option.map_none, Option.toList_none, List.append_nil]
      rcases hcase with ⟨-, rfl, rfl, rfl⟩ | ⟨m, -, hyp, rfl, rfl, rfl⟩ | ⟨m, i, e0, -, hyp, hf⟩
      · exact h.keep (keep_setAccount _ _ _) (balance _ y hy)
      · exact h.keep (keep_setAccount _ _ _) (balance _ y hy)
      · obtain ⟨d1, q, d2, t, src, h1, h2, h3, h4, rfl, h6, rfl, rfl⟩ := State.fillPad_ok hf
        have h7 : BalAcc (r.booked.set (i+1) (d2.withPostings t (calculateBalancePadPostings b.cur m b.acc q.source)))
            r.st := by
          intro d hd acc hb
          rcases List.mem_or_eq_of_mem_set hd with hd | rfl
          · exact h d hd acc hb
          · cases hb
        refine h7.keep ?_ (balance _ y hy)
        intro k a ha
        obtain ⟨a1, ha1⟩ := keep_setAccount r.st b.acc ((y.advance r.booked.length).adjustAdd b.cur m) k a ha
        exact keep_setAccount _ _ _ k a1 ha1
    · obtain ⟨hn1, hn2, rfl, h1, h2, h3⟩ := State.opn_ok ho
      simp only [Option.map_none, Option.toList_none, List.append_nil]
      refine h.keep ?_ (single _ fun _ => rfl)
      intro k a ha
      rw [h3, AMap.get_set]
      split
      · exact ⟨_, rfl⟩
      · exact ⟨a, ha⟩
    · obtain ⟨-, -, rfl, rfl⟩ := State.close_ok hc
      simp only [Option.map_none, Option.toList_none, List.append_nil]
      exact h.keep same (single _ fun _ => rfl)
    · obtain ⟨y, -, hy, hyp, rfl, rfl, rfl⟩ := State.pad_ok hpad
      rw [List.append_assoc]
      refine h.keep (keep_setAccount _ _ _) ?_
      intro d hd acc hb
      simp only [Option.map_some, Option.toList_some, List.cons_append, List.nil_append, List.mem_cons,
        List.not_mem_nil, or_false] at hd
      rcases hd with rfl | rfl <;> cases hb
    · simp only [Option.map_none, Option.toList_none, List.append_nil]
      refine h.keep same (single _ ?_)
      intro acc
      cases hrv : raw.variant <;> simp [hrv, plainVariant] at hpl <;> subst hpl <;> rfl

theorem WindowInv.step {env : Env L} {n : Nat} {raw : Raw.Directive} {r r' : Run L}
    (hi : StInv n r.booked r.st) (h : WindowInv r.booked r.st) (hb : BalAcc r.booked r.st) (hs : r.step env n raw = some r') :
    WindowInv r'.booked r'.st := by
  rcases Run.step_some hs with ⟨st', x, hd, rfl⟩ | ⟨st', v, v2, bk, errs, hd, -, rfl⟩
  · simp only
    rcases State.directive_err hd with ⟨t, -, ht⟩ | ⟨b, -, hbl⟩ | ⟨o, -, ho⟩ | ⟨c, -, hc⟩ | ⟨p, -, hp⟩
    · rcases State.transaction_err ht with ⟨rfl, -⟩ | ⟨rfl, -⟩ | ⟨q, -, ⟨rfl, -⟩ | ⟨-, hin⟩⟩
      · exact h
      · exact h
      · exact h
      · exact h.sameMeta (State.installInventory_sameMeta (Or.inr ⟨_, hin⟩))
    · rw [(State.balance_err hbl).1]; exact h
    · rcases State.opn_err ho with ⟨p, -, rfl, -⟩ | ⟨c, h1, h2, rfl, -⟩
      · exact h
      · exact h
    · rw [(State.close_err hc).1]; exact h
    · rcases State.pad_err hp with ⟨rfl, -⟩ | ⟨a, j, u, -, ha, -, rfl, -⟩
      · exact h
      · exact h.setAccount ha rfl
  · simp only
    rcases State.directive_ok hd with ⟨t, hv', ht, rfl, rfl⟩ | ⟨b, hv', hbal, rfl⟩ | ⟨op, hv', ho, rfl, rfl⟩ |
        ⟨cl, hv', hc, rfl, rfl⟩ | ⟨q, v', hv', hpad, rfl, rfl⟩ | ⟨hpl, rfl, rfl, rfl⟩
    · obtain ⟨_, -, -, hin, rfl⟩ := State.transaction_ok ht
      simp only [Option.map_none, Option.toList_none, List.append_nil]
      refine (h.sameMeta (State.installInventory_sameMeta (Or.inl hin))).append ?_
      intro d hd acc
      rw [List.mem_singleton] at hd
      subst hd; rfl
    · obtain ⟨y, hop, hy, hcv, hcase⟩ := State.balance_ok hbal
      simp only [Option.map_none, Option.toList_none, List.append_nil]
      rcases hcase with ⟨-, rfl, rfl, rfl⟩ | ⟨m, -, hyp, rfl, rfl, rfl⟩ | ⟨m, i, e0, -, hyp, hf⟩
      · exact h.advance ⟨_, rfl⟩ (fun acc => rfl)
      · exact h.advance ⟨_, rfl⟩ (fun acc => rfl)
      · obtain ⟨d1, q, d2, t, src, h1, h2, h3, h4, rfl, h6, rfl, rfl⟩ := State.fillPad_ok hf
        have h7 : WindowInv (r.booked.set (i+1) (d2.withPostings t (calculateBalancePadPostings b.cur m b.acc q.source)))
            r.st := h.set h3 (by intro acc; simp [isBalanceOn, h4]) (by intro acc; rfl)
        have h8 := h7.advance (b := b) (a' := (y.advance r.booked.length).adjustAdd b.cur m)
          (d := mkBooked n raw (.balance { raw := b })) ⟨_, by rw [List.length_set]; rfl⟩ (fun acc => rfl)
        exact h8.setAccount h6 rfl
    · obtain ⟨hn1, hn2, rfl, h1, h2, h3⟩ := State.opn_ok ho
      simp only [Option.map_none, Option.toList_none, List.append_nil]
      have hnone : r.st.accounts.get op.acc = none := by
        cases hx : r.st.accounts.get op.acc with
        | none => rfl
        | some x => rcases hi.acc _ _ hx with ⟨e, he⟩ | ⟨e, he⟩ <;> simp_all
      refine WindowInv.append ?_ (by
        intro d hd acc
        rw [List.mem_singleton] at hd
        subst hd; rfl)
      intro acc a ha
      rw [h3, AMap.get_set] at ha
      split at ha
      · rename_i hk
        subst hk
        cases ha
        simp only [Account.new]
        intro d hd
        cases hbd : isBalanceOn op.acc d with
        | false => rfl
        | true =>
          obtain ⟨x, hx⟩ := hb d hd _ hbd
          rw [hnone] at hx
          cases hx
      · exact h acc a ha
    · obtain ⟨-, -, rfl, rfl⟩ := State.close_ok hc
      simp only [Option.map_none, Option.toList_none, List.append_nil]
      refine WindowInv.append (show WindowInv r.booked _ from h) ?_
      intro d hd acc
      rw [List.mem_singleton] at hd
      subst hd; rfl
    · obtain ⟨y, -, hy, hyp, rfl, rfl, rfl⟩ := State.pad_ok hpad
      rw [List.append_assoc]
      refine WindowInv.append (h.setAccount hy rfl) ?_
      intro d hd acc
      simp only [Option.map_some, Option.toList_some, List.cons_append, List.nil_append, List.mem_cons,
        List.not_mem_nil, or_false] at hd
      rcases hd with rfl | rfl <;> rfl
    · simp only [Option.map_none, Option.toList_none, List.append_nil]
      refine h.append ?_
      intro d hd acc
      rw [List.mem_singleton] at hd
      subst hd
      cases hrv : raw.variant <;> simp [hrv, plainVariant] at hpl <;> subst hpl <;> rfl

theorem WindowInv.loop {env : Env L} {ds : List Raw.Directive} {r : Run L} (h : Run.loop env 0 ds {} = some r) :
    WindowInv r.booked r.st := by
  have := Run.loop_induction env
    (fun pre r => StInv pre.length r.booked r.st ∧ BalAcc r.booked r.st ∧ WindowInv r.booked r.st)
    ⟨StInv.init, by intro d hd; simp at hd, by intro acc a ha; simp at ha⟩
    (fun pre raw r r' hp hs => ⟨by simpa using hp.1.step hs, hp.2.1.step hs, hp.2.2.step hp.1 hp.2.1 hs⟩) h
  exact this.2.2

/-- The total of a report, over all postings below the account whatever their currency. -/
theorem diagnose_val (base : Str) (ds : List Booked.Directive) (t : Dec) :
    (diagnose base t ds).1.val = t.val + sumUnits (fun p => Below base p.acc) ds := by
  have hp : ∀ (ps : List Booked.Posting) (date : Date) (ds : Option Str) (t : Dec),
      (diagnosePostings base date ds t ps).1.val = t.val + sumP (fun p => Below base p.acc) ps := by
    intro ps date ds
    induction ps with
    | nil => intro t; simp [diagnosePostings, sumP_nil]
    | cons p ps ih =>
      intro t
      simp only [diagnosePostings, sumP_cons]
      by_cases hb : isNonstrictSubaccount base p.acc = true
      · have hb' : Below base p.acc := (sub_iff_below base p.acc).1 hb
        simp only [hb, if_true, ih, Dec.val_add, hb', decide_true]
        ring
      · have hb' : ¬ Below base p.acc := fun h => hb ((sub_iff_below base p.acc).2 h)
        rw [if_neg hb, ih]
        simp [hb']
  induction ds generalizing t with
  | nil => simp [diagnose, sumUnits_nil]
  | cons d ds ih =>
    simp only [diagnose, sumUnits_cons]
    cases hv : d.variant with
    | transaction tx =>
      simp only [ih, hp, postingsOf, hv]
      ring
    | _ => simp [ih, postingsOf, hv, sumP_nil]

/-- Postings of one currency add up to the same with and without a condition on the currency. -/
theorem sumUnits_one_currency {ds : List Booked.Directive} {acc cur : Str}
    (h : ∀ p ∈ postings ds, Below acc p.acc → p.cur = cur) :
    sumUnits (fun p => Below acc p.acc) ds = rolledUp ds acc cur := by
  unfold rolledUp sumUnits
  congr 2
  apply List.filter_congr
  intro p hp
  by_cases hb : Below acc p.acc
  · simp [hb, h p hp hb]
  · simp [hb]

/-- Accounts exist only once something was booked, so that the first booked directive is not a balance. -/
theorem first_not_balance {env : Env L} {ds : List Raw.Directive} {r : Run L} (h : Run.loop env 0 ds {} = some r)
    {d : Booked.Directive} (hd : r.booked[0]? = some d) (b : Booked.Balance) : d.variant ≠ .balance b := by
  have := Run.loop_induction env (fun _ r => (∀ acc a, r.st.accounts.get acc = some a → r.booked ≠ []) ∧
      ∀ d, r.booked[0]? = some d → ∀ b, d.variant ≠ .balance b) ⟨by simp, by simp⟩ (by
    intro pre raw r r' hp hs
    obtain ⟨h1, h2⟩ := hp
    rcases Run.step_some hs with ⟨st', x, hd, rfl⟩ | ⟨st', v, v2, bk, errs, hd, -, rfl⟩
    · refine ⟨?_, h2⟩
      simp only
      have meta_ : ∀ {st' : State L}, SameMeta r.st st' → ∀ acc a, st'.accounts.get acc = some a → r.booked ≠ [] := by
        intro st' hm acc a ha
        obtain ⟨a', ha', -⟩ := hm.accounts acc a ha
        exact h1 acc a' ha'
      rcases State.directive_err hd with ⟨t, -, ht⟩ | ⟨b, -, hbl⟩ | ⟨o, -, ho⟩ | ⟨c, -, hc⟩ | ⟨p, -, hp⟩
      · rcases State.transaction_err ht with ⟨rfl, -⟩ | ⟨rfl, -⟩ | ⟨q, -, ⟨rfl, -⟩ | ⟨-, hin⟩⟩
        · exact h1
        · exact h1
        · exact h1
        · exact meta_ (State.installInventory_sameMeta (Or.inr ⟨_, hin⟩))
      · rw [(State.balance_err hbl).1]; exact h1
      · rcases State.opn_err ho with ⟨p, -, rfl, -⟩ | ⟨c, k1, k2, rfl, -⟩
        · exact h1
        · exact h1
      · rw [(State.close_err hc).1]; exact h1
      · rcases State.pad_err hp with ⟨rfl, -⟩ | ⟨a, j, u, -, ha, -, rfl, -⟩
        · exact h1
        · intro _ _ _
          exact h1 _ _ ha
    · refine ⟨by intro _ _ _; simp, ?_⟩
      simp only
      intro d hd0 b hb
      rcases State.directive_ok hd with ⟨t, hv', ht, rfl, rfl⟩ | ⟨b', hv', hbal, rfl⟩ | ⟨op, hv', ho, rfl, rfl⟩ |
          ⟨cl, hv', hc, rfl, rfl⟩ | ⟨q, v', hv', hpad, rfl, rfl⟩ | ⟨hpl, rfl, rfl, rfl⟩
      rotate_left
      · obtain ⟨y, hop, hy, hcv, hcase⟩ := State.balance_ok hbal
        have hne := h1 _ _ hy
        have hz : ∃ d0, r.booked[0]? = some d0 := by
          cases hbk : r.booked with
          | nil => exact absurd hbk hne
          | cons d0 l => exact ⟨d0, rfl⟩
        obtain ⟨d0, hz⟩ := hz
        have hlt : 0 < r.booked.length := (List.getElem?_eq_some_iff.1 hz).1
        rcases hcase with ⟨-, rfl, rfl, rfl⟩ | ⟨m, -, hyp, rfl, rfl, rfl⟩ | ⟨m, i, e0, -, hyp, hf⟩
        · simp only [Option.map_none, Option.toList_none, List.append_nil] at hd0
          rw [List.getElem?_append_left hlt] at hd0
          exact h2 _ hd0 b hb
        · simp only [Option.map_none, Option.toList_none, List.append_nil] at hd0
          rw [List.getElem?_append_left hlt] at hd0
          exact h2 _ hd0 b hb
        · obtain ⟨d1, q, d2, t, src, -, -, -, -, rfl, -⟩ := State.fillPad_ok hf
          simp only [Option.map_none, Option.toList_none, List.append_nil] at hd0
          rw [List.getElem?_append_left (by simpa using hlt), List.getElem?_set_ne (by omega)] at hd0
          exact h2 _ hd0 b hb
      all_goals
        by_cases hne : r.booked = []
        · rw [hne] at hd0
          simp only [List.nil_append, List.cons_append, List.getElem?_cons_zero, Option.some.injEq] at hd0
          rw [← hd0] at hb
          simp only [mkBooked] at hb
          subst hb
          first
          | exact (State.transaction_ok ht).elim fun _ h => absurd h.2.2.2 (by simp)
          | exact absurd (State.opn_ok ho).2.2.1 (by simp)
          | exact absurd (State.close_ok hc).2.2.1 (by simp)
          | exact (State.pad_ok hpad).elim fun _ h => absurd h.2.2.2.2.1 (by simp)
          | (cases hrv : raw.variant <;> simp [hrv, plainVariant] at hpl)
        · have hlt : 0 < r.booked.length := List.length_pos_of_ne_nil hne
          rw [List.append_assoc, List.getElem?_append_left hlt] at hd0
          exact h2 _ hd0 b hb) h
  exact this.2 d hd b

/-- C21, partial: the report of a first assertion on an account, after a history without errors and with postings of one
currency only on the account and those below it: the accumulated total is the total, and with the reported error it makes
the asserted amount. Missing: several currencies, where it is false. -/
theorem C21_first_assertion_partial (L : BookLib) (hL : L.Lawful) (order : AMap Str (Account L) → AMap Str (Account L))
    (hf : ∀ m, (order m).Perm m) (o : BookOptions) (ds : List Raw.Directive) (raw : Raw.Directive) (b : Raw.Balance)
    (hv : raw.variant = .balance b) (r r' : Run L) (h : Run.loop (envOf L o order) 0 ds {} = some r)
    (h0 : r.errors = []) (h' : Run.loop (envOf L o order) 0 (ds ++ [raw]) {} = some r')
    (rep : IndexedReport) (t m : Dec) (c : Str) (he : r'.errors = [rep]) (hr : rep.reason = .accumulated t m c)
    (hfirst : ∀ d ∈ r.booked, ∀ b', d.variant = .balance b' → b'.raw.acc ≠ b.acc)
    (hcur : ∀ p ∈ postings r.booked, Below b.acc p.acc → p.cur = b.cur) :
    t.val = rolledUp r.booked b.acc b.cur ∧ t.val + m.val = b.units.val := by
  have hfair : (envOf L o order).Fair := hf
  have hi := StInv.loop h
  have hs : r.step (envOf L o order) ds.length raw = some r' := by
    obtain ⟨r1, h1, h2⟩ := Run.loop_snoc.1 h'
    rw [h] at h1
    cases h1
    simpa using h2
  obtain ⟨a, ho, ha, hc, hp, hm, -, hst, hbk, ht⟩ := failed_balance hi hv hs (by rw [h0]; exact he) hr
  have hw := WindowInv.loop h _ _ ha
  have hwn : a.window = none := by
    cases hwn : a.window with
    | none => rfl
    | some w =>
      exfalso
      simp only [hwn] at hw
      obtain ⟨⟨d, h1, h2⟩, -⟩ := hw
      unfold isBalanceOn at h2
      cases hdv : d.variant with
      | balance b' =>
        simp only [hdv, decide_eq_true_eq] at h2
        exact hfirst d (List.mem_of_getElem? h1) b' hdv h2
      | _ => simp [hdv] at h2
  have hbase : reportBase b.cur ⟨0, r.booked.length⟩ r.booked = Dec.zero := by
    unfold reportBase
    split
    · rename_i i dt tg ln md bal hz
      exfalso
      exact first_not_balance h hz bal rfl
    · rfl
  have htot : t.val = rolledUp r.booked b.acc b.cur := by
    rw [ht, hwn]
    simp only [List.drop_zero, hbase, diagnose_val, sumUnits_one_currency hcur]
    simp
  refine ⟨htot, ?_⟩
  rw [htot, marginOf_some hfair hm, held_loop hL h h0]
  simp [rolledUp]

/-- C21, partial: likewise for an assertion after an earlier one on the same account in the same currency, if the earlier
one held exactly and the postings since then, on the account and those below it, are in that currency. -/
theorem C21_next_assertion_partial (L : BookLib) (hL : L.Lawful) (order : AMap Str (Account L) → AMap Str (Account L))
    (hf : ∀ m, (order m).Perm m) (o : BookOptions) (ds : List Raw.Directive) (raw : Raw.Directive) (b : Raw.Balance)
    (hv : raw.variant = .balance b) (r r' : Run L) (h : Run.loop (envOf L o order) 0 ds {} = some r)
    (h0 : r.errors = []) (h' : Run.loop (envOf L o order) 0 (ds ++ [raw]) {} = some r')
    (rep : IndexedReport) (t m : Dec) (c : Str) (he : r'.errors = [rep]) (hr : rep.reason = .accumulated t m c)
    (l l' : List Booked.Directive) (d : Booked.Directive) (b0 : Booked.Balance) (hl : r.booked = l ++ d :: l')
    (hd : d.variant = .balance b0) (hacc : b0.raw.acc = b.acc) (hcur0 : b0.raw.cur = b.cur)
    (hexact : b0.raw.units.val = rolledUp l b.acc b.cur)
    (hlast : ∀ d ∈ l', ∀ b', d.variant = .balance b' → b'.raw.acc ≠ b.acc)
    (hcur : ∀ p ∈ postings l', Below b.acc p.acc → p.cur = b.cur) :
    t.val = rolledUp r.booked b.acc b.cur ∧ t.val + m.val = b.units.val := by
  have hfair : (envOf L o order).Fair := hf
  have hi := StInv.loop h
  have hs : r.step (envOf L o order) ds.length raw = some r' := by
    obtain ⟨r1, h1, h2⟩ := Run.loop_snoc.1 h'
    rw [h] at h1
    cases h1
    simpa using h2
  obtain ⟨a, ho, ha, hc, hp, hm, -, hst, hbk, ht⟩ := failed_balance hi hv hs (by rw [h0]; exact he) hr
  have hw := WindowInv.loop h _ _ ha
  have hdb : isBalanceOn b.acc d = true := by simp [isBalanceOn, hd, hacc]
  have hwn : ∃ w, a.window = some w ∧ w.stop = l.length := by
    cases hwn : a.window with
    | none =>
      exfalso
      simp only [hwn] at hw
      have := hw d (by rw [hl]; simp)
      rw [hdb] at this
      cases this
    | some w =>
      refine ⟨w, rfl, ?_⟩
      simp only [hwn] at hw
      obtain ⟨⟨d1, h1, h2⟩, h3⟩ := hw
      rcases lt_trichotomy w.stop l.length with hlt | heq | hgt
      · have := h3 l.length d hlt (by rw [hl]; simp)
        rw [hdb] at this
        cases this
      · exact heq
      · exfalso
        rw [hl, List.getElem?_append_right (by omega)] at h1
        have hk : ∃ k, w.stop - l.length = k + 1 := ⟨w.stop - l.length - 1, by omega⟩
        obtain ⟨k, hk⟩ := hk
        rw [hk, List.getElem?_cons_succ] at h1
        unfold isBalanceOn at h2
        cases hdv : d1.variant with
        | balance b' =>
          simp only [hdv, decide_eq_true_eq] at h2
          exact hlast d1 (List.mem_of_getElem? h1) b' hdv h2
        | _ => simp [hdv] at h2
  obtain ⟨w, hwn, hstop⟩ := hwn
  have hbase : reportBase b.cur ⟨l.length, r.booked.length⟩ r.booked = b0.raw.units := by
    obtain ⟨_, _, _, _, _, v⟩ := d
    simp only at hd
    subst hd
    simp [reportBase, hl, hcur0]
  have hroll : rolledUp r.booked b.acc b.cur = rolledUp l b.acc b.cur + rolledUp l' b.acc b.cur := by
    unfold rolledUp
    rw [hl, sumUnits_append, sumUnits_cons]
    have : postingsOf d = [] := by simp [postingsOf, hd]
    rw [this, sumP_nil, zero_add]
  have htot : t.val = rolledUp r.booked b.acc b.cur := by
    rw [ht, hwn]
    simp only [hstop, hbase, diagnose_val]
    have hdrop : r.booked.drop l.length = d :: l' := by rw [hl]; simp
    rw [hdrop, sumUnits_cons]
    have : postingsOf d = [] := by simp [postingsOf, hd]
    rw [this, sumP_nil, zero_add, sumUnits_one_currency hcur, hroll, hexact]
  refine ⟨htot, ?_⟩
  rw [htot, marginOf_some hfair hm, held_loop hL h h0]
  simp [rolledUp]

/-- What the report of a failed assertion says: total and error. -/
def reportNumbers (o : Outcome) : List (Dec × Dec) :=
  match o with
  | .failure es => es.filterMap fun rep => match rep.reason with
    | .accumulated t m _ => some (t, m)
    | _ => none
  | _ => []

/-- A case: 87.50 is held below Assets:Bank:Current and 20 are missing. -/
example : reportNumbers (Toy.run [Toy.mkOpen 1 Ex.bank, Toy.mkOpen 1 Ex.current, Toy.mkOpen 1 Ex.food,
    Toy.mkTxn 2 [(Ex.current, ⟨8750, 2⟩, Ex.nzd), (Ex.food, ⟨-8750, 2⟩, Ex.nzd)],
    Toy.mkBal 3 Ex.bank ⟨10750, 2⟩ Ex.nzd]) = [(⟨8750, 2⟩, ⟨2000, 2⟩)] := by decide +kernel

/-- The full statement is false: with postings in two currencies, the total is their sum. -/
theorem C21_mixed_currencies : ∃ ds t m, reportNumbers (Toy.run ds) = [(t, m)] ∧
    ds.getLast? = some (Toy.mkBal 3 Ex.bank ⟨10, 0⟩ Ex.nzd) ∧ t.val + m.val ≠ 10 := by
  refine ⟨[Toy.mkOpen 1 Ex.bank, Toy.mkOpen 1 Ex.food,
    Toy.mkTxn 2 [(Ex.bank, ⟨5, 0⟩, Ex.nzd), (Ex.food, ⟨-5, 0⟩, Ex.nzd)],
    Toy.mkTxn 2 [(Ex.bank, ⟨3, 0⟩, Ex.usd), (Ex.food, ⟨-3, 0⟩, Ex.usd)],
    Toy.mkBal 3 Ex.bank ⟨10, 0⟩ Ex.nzd], ⟨8, 0⟩, ⟨5, 0⟩, by decide +kernel, by decide +kernel, by decide +kernel⟩

/-- It is also false after an assertion which held within its tolerance: the report starts from the asserted amount. -/
theorem C21_within_tolerance : ∃ ds t m, reportNumbers (Toy.run ds) = [(t, m)] ∧
    ds.getLast? = some (Toy.mkBal 4 Ex.bank ⟨1000, 2⟩ Ex.nzd) ∧ t.val + m.val ≠ 10 := by
  refine ⟨[Toy.mkOpen 1 Ex.bank, Toy.mkOpen 1 Ex.food,
    Toy.mkTxn 2 [(Ex.bank, ⟨501, 2⟩, Ex.nzd), (Ex.food, ⟨-501, 2⟩, Ex.nzd)],
    Toy.mkBal 3 Ex.bank ⟨500, 2⟩ Ex.nzd,
    Toy.mkBal 4 Ex.bank ⟨1000, 2⟩ Ex.nzd], ⟨500, 2⟩, ⟨499, 2⟩, by decide +kernel, by decide +kernel, by decide +kernel⟩

end Limabean
