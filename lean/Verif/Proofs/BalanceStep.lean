/-
One balance assertion, in any reachable state.
-/
import Verif.Proofs.Refine
import Verif.Props.C04

namespace Limabean

open Spec

variable {L : BookLib}

theorem marginOf_none_iff {env : Env L} (hf : env.Fair) {st : State L} {b : Raw.Balance} :
    st.marginOf env b = none ↔
      |b.units.val - st.held (fun a => Below b.acc a) b.cur| ≤ tolerance env.tolerance.multiplier b := by
  unfold State.marginOf calculateBalanceMargin
  simp only [ite_eq_right_iff, reduceCtorEq, imp_false, Dec.gt_iff, Dec.val_abs, Dec.val_sub, C04_tolerance,
    State.totalRollupUnits_val hf, gt_iff_lt, not_lt]

theorem marginOf_some {env : Env L} (hf : env.Fair) {st : State L} {b : Raw.Balance} {m : Dec}
    (h : st.marginOf env b = some m) :
    m.val = b.units.val - st.held (fun a => Below b.acc a) b.cur := by
  unfold State.marginOf calculateBalanceMargin at h
  simp only [Option.ite_none_right_eq_some, Option.some.injEq] at h
  rw [← h.2, Dec.val_sub, State.totalRollupUnits_val hf]

theorem State.balance_eq {env : Env L} {st : State L} {b : Raw.Balance} {e : ElementIdx} {bk : List Booked.Directive}
    {a : Account L} (ho : st.opened.has b.acc = true) (ha : st.accounts.get b.acc = some a)
    (hc : a.isCurrencyValid b.cur = true) :
    st.balance env b e bk = match st.marginOf env b with
      | none => .ok (st.setAccount b.acc (a.advance bk.length))
          (.balance { raw := b, unusedPad := a.pad.map fun p => p.2 }, bk)
      | some m => match a.pad with
        | none => .ok (st.resetTo b a m bk.length) (.balance { raw := b, margin := some m }, bk)
        | some (i, _) => (st.resetTo b a m bk.length).fillPad b m i bk := by
  have hg1 := (State.getValidAccount_ok (e := e)).2 ⟨ho, ha⟩
  have hg2 := (Account.validateCurrency_none (e := e)).2 hc
  unfold State.balance State.marginOf
  simp only [hg1, hg2]
  rfl

/-- The report of a failed balance exists in every reachable state. -/
theorem balanceReport_some {n : Nat} {bk : List Booked.Directive} {st : State L} (hi : StInv n bk st) {base : Str}
    {a : Account L} {w : Window} (ha : st.accounts.get base = some a) (hw : a.window = some w) (m : Dec) (c : Str)
    (e : ElementIdx) :
    st.balanceReport base m c e bk = some
      { reason := .accumulated (diagnose base (reportBase c w bk) ((bk.take w.stop).drop w.start)).1 m c
        idx := e
        annotation := (let r := diagnose base (reportBase c w bk) ((bk.take w.stop).drop w.start)
          let multiple := decide (1 < ((r.2.map fun x => x.2.1).eraseDups).length)
          some (r.2.map fun (date, _, rel, units, total, description) =>
                 { date := date, acc := if multiple then some rel else none,
                   units := units, total := total, description := description })) } := by
  unfold State.balanceReport
  simp only [ha, hw]
  rw [if_pos (hi.window _ _ _ ha hw)]

/-- A balance step in a reachable state: all the cases. -/
theorem balance_step {env : Env L} {n : Nat} {raw : Raw.Directive} {b : Raw.Balance} {r : Run L} {a : Account L}
    (hi : StInv n r.booked r.st) (hv : raw.variant = .balance b) (ho : r.st.opened.has b.acc = true)
    (ha : r.st.accounts.get b.acc = some a) (hc : a.isCurrencyValid b.cur = true) :
    (r.st.marginOf env b = none →
      r.step env n raw = some
        { st := r.st.setAccount b.acc (a.advance r.booked.length)
          booked := r.booked ++ [mkBooked n raw (.balance { raw := b, unusedPad := a.pad.map fun p => p.2 })]
          errors := r.errors ++ (a.pad.map fun p => p.2.report .unusedNoAdjustment).toList }) ∧
    (∀ m, r.st.marginOf env b = some m → a.pad = none →
      ∃ rep t, rep.reason = .accumulated t m b.cur ∧ rep.idx = { directive := n } ∧ rep.related = none ∧
      t = (diagnose b.acc (reportBase b.cur ⟨match a.window with | some w => w.stop | none => 0, r.booked.length⟩
        r.booked) (r.booked.drop (match a.window with | some w => w.stop | none => 0))).1 ∧
      r.step env n raw = some
        { st := r.st.resetTo b a m r.booked.length
          booked := r.booked ++ [mkBooked n raw (.balance { raw := b, margin := some m })]
          errors := r.errors ++ [rep] }) ∧
    (∀ m i e, r.st.marginOf env b = some m → a.pad = some (i, e) →
      ∀ d p d2 t, r.booked[i]? = some d → d.variant = .pad p → r.booked[i+1]? = some d2 → d2.variant = .transaction t →
      r.step env n raw =
        match (r.st.resetTo b a m r.booked.length).accounts.get p.source with
        | none => none
        | some src => some
          { st := (r.st.resetTo b a m r.booked.length).setAccount p.source (src.adjustSubtract b.cur m)
            booked := r.booked.set (i+1) (d2.withPostings t (calculateBalancePadPostings b.cur m b.acc p.source)) ++
              [mkBooked n raw (.balance { raw := b })]
            errors := r.errors }) := by
  have heq := State.balance_eq (env := env) (e := { directive := n }) (bk := r.booked) ho ha hc
  refine ⟨?_, ?_, ?_⟩
  · intro hm
    rw [hm] at heq
    simp only at heq
    unfold Run.step State.directive
    simp only [hv, heq, balanceErrors]
    cases a.pad with
    | none => simp
    | some p => simp
  · intro m hm hp
    rw [hm, hp] at heq
    simp only at heq
    have hi' : StInv n r.booked (r.st.resetTo b a m r.booked.length) := hi.balance heq
    have hget : (r.st.resetTo b a m r.booked.length).accounts.get b.acc =
        some ((a.advance r.booked.length).adjustAdd b.cur m) := by
      simp [State.resetTo, State.setAccount, AMap.get_set]
    have hw : ((a.advance r.booked.length).adjustAdd b.cur m).window =
        some ⟨match a.window with | some w => w.stop | none => 0, r.booked.length⟩ := rfl
    have hrep := balanceReport_some hi' hget hw m b.cur { directive := n }
    generalize hg : IndexedReport.mk _ _ _ _ = rep at hrep
    refine ⟨rep, _, by rw [← hg], by rw [← hg], by rw [← hg], by simp, ?_⟩
    unfold Run.step State.directive
    simp only [hv, heq, balanceErrors, hrep]
    simp
  · intro m i e hm hp d p d2 t h1 h2 h3 h4
    rw [hm, hp] at heq
    simp only at heq
    unfold Run.step State.directive
    simp only [hv, heq]
    unfold State.fillPad
    obtain ⟨n', dt, tg, ln, md, vr⟩ := d
    simp only at h2
    subst h2
    simp only [h1]
    have := (setPostingsAt_some (bk := r.booked) (i := i + 1)
      (ps := calculateBalancePadPostings b.cur m b.acc p.source) (bk' := _)).2 ⟨d2, t, h3, h4, rfl⟩
    simp only [this]
    cases hsrc : (r.st.resetTo b a m r.booked.length).accounts.get p.source with
    | none => rfl
    | some src => simp [balanceErrors, Booked.Directive.withPostings]

/-- The account record of an open account with a permitted currency. -/
theorem LifeInv.usable {env : Env L} {pre : List Raw.Directive} {st : State L} (h : LifeInv env pre st) {acc cur : Str}
    (ho : IsOpen pre acc) (hp : Permits pre acc cur) :
    ∃ a, st.opened.has acc = true ∧ st.accounts.get acc = some a ∧ a.isCurrencyValid cur = true := by
  obtain ⟨o, ho⟩ := ho
  obtain ⟨-, ⟨e, he⟩, -, a, ha, hf⟩ := h.opn acc o ho
  refine ⟨a, by simp [AMap.has, he], ha, ?_⟩
  unfold Account.isCurrencyValid
  rw [hf.allowed]
  rcases hp o (Or.inl ho) with h1 | h1
  · simp [h1]
  · simp [h1]

end Limabean
