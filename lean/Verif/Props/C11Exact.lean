/-
C11: the lifecycle exactly, also after a refused attempt to reopen an account.
-/
import Verif.Props.C11

namespace Limabean

open Spec

/-- **C11**, opening a closed account: the first time it is reported as closed, and any further time as open. -/
theorem C11_open_exact (L : BookLib) (order : AMap Str (Account L) → AMap Str (Account L)) (o : BookOptions)
    (ds : List Raw.Directive) (hp : errorsOf L order o ds ≠ none) (raw : Raw.Directive) (op : Raw.Open)
    (hv : raw.variant = .opn op) (hc : ∃ o', life ds op.acc = .closed o') :
    (¬ Reopened ds op.acc → AddsReport L order o ds raw .accountClosed) ∧
    (Reopened ds op.acc → AddsReport L order o ds raw .alreadyOpened) := by
  obtain ⟨r, hl, he⟩ := errorsOf_some hp
  have hlife := LifeInv.loop hl
  have hdir : ∀ e, r.st.directive (envOf L o order) raw e r.booked =
      (r.st.opn (envOf L o order) op e).plain r.booked := by
    intro e; unfold State.directive; rw [hv]
  have already : ∀ prev, r.st.opened.get op.acc = some prev → AddsReport L order o ds raw .alreadyOpened := by
    intro prev h
    have := addsReport_of_err (raw := raw) hl (st := r.st)
      (x := (ElementIdx.report { directive := ds.length } Reason.alreadyOpened).relatedTo prev)
      (by rw [hdir]; simp [State.opn, h, Res.plain]) rfl
    exact this
  obtain ⟨o', h⟩ := hc
  obtain ⟨-, ⟨e, h1⟩, -⟩ := hlife.closed _ _ h
  constructor
  · intro hr
    have ho : r.st.opened.get op.acc = none := by
      cases ho : r.st.opened.get op.acc with
      | none => rfl
      | some e => exact absurd ((hlife.reopened _ _ h).1 ⟨_, ho⟩) hr
    have := addsReport_of_err (raw := raw) hl
      (st := { r.st with opened := r.st.opened.set op.acc { directive := ds.length } })
      (x := (ElementIdx.report { directive := ds.length } Reason.accountClosed).relatedTo e)
      (by rw [hdir]; simp [State.opn, ho, h1, Res.plain]) rfl
    exact this
  · intro hr
    obtain ⟨prev, ho⟩ := (hlife.reopened _ _ h).2 hr
    exact already prev ho

/-- **C11**, closing a closed account: it is reported as not open, and after an attempt to reopen it as closed. -/
theorem C11_close_exact (L : BookLib) (order : AMap Str (Account L) → AMap Str (Account L)) (o : BookOptions)
    (ds : List Raw.Directive) (hp : errorsOf L order o ds ≠ none) (raw : Raw.Directive) (c : Raw.Close)
    (hv : raw.variant = .close c) (hc : ∃ o', life ds c.acc = .closed o') :
    (¬ Reopened ds c.acc → AddsReport L order o ds raw .accountNotOpen) ∧
    (Reopened ds c.acc → AddsReport L order o ds raw .alreadyClosed) := by
  obtain ⟨r, hl, he⟩ := errorsOf_some hp
  have hlife := LifeInv.loop hl
  have hdir : ∀ e, r.st.directive (envOf L o order) raw e r.booked = (r.st.close c e).plain r.booked := by
    intro e; unfold State.directive; rw [hv]
  have notOpen : r.st.opened.get c.acc = none → AddsReport L order o ds raw .accountNotOpen := by
    intro h
    have := addsReport_of_err (raw := raw) hl (st := r.st)
      (x := (ElementIdx.report { directive := ds.length } Reason.accountNotOpen))
      (by rw [hdir]; simp [State.close, h, Res.plain]) rfl
    exact this
  obtain ⟨o', h⟩ := hc
  obtain ⟨-, ⟨e, h1⟩, -⟩ := hlife.closed _ _ h
  constructor
  · intro hr
    refine notOpen ?_
    cases ho : r.st.opened.get c.acc with
    | none => rfl
    | some e => exact absurd ((hlife.reopened _ _ h).1 ⟨_, ho⟩) hr
  · intro hr
    obtain ⟨prev, ho⟩ := (hlife.reopened _ _ h).2 hr
    have := addsReport_of_err (raw := raw) hl (st := r.st)
      (x := (ElementIdx.report { directive := ds.length } Reason.alreadyClosed).relatedTo e)
      (by rw [hdir]; simp [State.close, ho, h1, Res.plain]) rfl
    exact this

/-- **C11**, use, for all histories: a balance or a pad is refused for the status of the account exactly as the lifecycle says, unless there
was an attempt to reopen it; then it is never refused for its status. The accounts of a transaction without reports are open, or there was
such an attempt. -/
theorem C11_status_exact (L : BookLib) (hL : L.Lawful) (order : AMap Str (Account L) → AMap Str (Account L))
    (o : BookOptions) (ds : List Raw.Directive) (hp : errorsOf L order o ds ≠ none) (raw : Raw.Directive) :
    (∀ b, raw.variant = .balance b → ∀ reason, reason = .accountNotOpen ∨ reason = .accountClosed →
      (AddsReport L order o ds raw reason ↔ refusal (life ds b.acc) = some reason ∧ ¬ Reopened ds b.acc)) ∧
    (∀ p, raw.variant = .pad p → ∀ reason, reason = .accountNotOpen ∨ reason = .accountClosed →
      (AddsReport L order o ds raw reason ↔ refusal (life ds p.acc) = some reason ∧ ¬ Reopened ds p.acc)) ∧
    (∀ t, raw.variant = .transaction t → AddsNone L order o ds raw → ∀ p ∈ t.postings, IsOpen ds p.acc ∨ Reopened ds p.acc) := by
  have hpart := C11_status_partial L hL order o ds hp raw
  obtain ⟨r, hl, he⟩ := errorsOf_some hp
  have hlife := LifeInv.loop hl
  have key : ∀ acc,
      (¬ Reopened ds acc → ∀ reason, reason = .accountNotOpen ∨ reason = .accountClosed →
        (refusal (life ds acc) = some reason ↔ AddsReport L order o ds raw reason)) →
      (∀ e r', r.st.validateAccount acc e = none → r.step (envOf L o order) ds.length raw = some r' →
        ∀ rep ∈ r'.errors.drop r.errors.length, rep.reason ≠ .accountNotOpen ∧ rep.reason ≠ .accountClosed) →
      ∀ reason, reason = .accountNotOpen ∨ reason = .accountClosed →
        (AddsReport L order o ds raw reason ↔ refusal (life ds acc) = some reason ∧ ¬ Reopened ds acc) := by
    intro acc h1 h2 reason hreason
    by_cases hr : Reopened ds acc
    · constructor
      · rintro ⟨es, rep, g1, g2, g3, g4⟩
        exfalso
        rw [he] at g1
        cases g1
        have hx : r.st.validateAccount acc { directive := ds.length } = none :=
          State.validateAccount_none.2 ((hlife.opened_iff _).2 (.inr hr))
        cases hst : r.step (envOf L o order) ds.length raw with
        | none =>
          have : errorsOf L order o (ds ++ [raw]) = none := by
            unfold errorsOf
            rw [Run.loop_append, hl]
            simp [Run.loop, hst]
          rw [this] at g2; cases g2
        | some r' =>
          rw [errorsOf_snoc hl hst] at g2
          simp only [Option.some.injEq] at g2
          have := h2 _ r' hx hst rep (by rw [g2]; simp)
          rw [g3] at this
          rcases hreason with rfl | rfl
          · exact this.1 rfl
          · exact this.2 rfl
      · rintro ⟨-, h⟩
        exact absurd hr h
    · rw [← h1 hr reason hreason]
      exact ⟨fun h => ⟨h, hr⟩, fun h => h.1⟩
  refine ⟨?_, ?_, ?_⟩
  · intro b hv
    refine key b.acc (fun hr => hpart.1 b hv hr) ?_
    · intro e r' hx hst rep hrep
      rcases Run.step_some hst with ⟨st', x, hd, rfl⟩ | ⟨st', v, v2, bk, errs, hd, hbe, rfl⟩
      · simp only [List.drop_append_length, List.mem_singleton] at hrep
        subst hrep
        rcases State.directive_err hd with ⟨t, hv', -⟩ | ⟨b', hv', hb⟩ | ⟨o', hv', -⟩ | ⟨c, hv', -⟩ | ⟨p, hv', -⟩ <;>
          rw [hv] at hv' <;> cases hv'
        rcases State.balance_err hb with ⟨-, h | ⟨a, -, -, h⟩⟩
        · rw [State.validateAccount_none] at hx
          rw [(State.validateAccount_none (e := { directive := ds.length })).2 hx] at h
          cases h
        · obtain ⟨-, rfl⟩ := Account.validateCurrency_some h
          simp [ElementIdx.report, IndexedReport.relatedTo]
      · simp only [List.drop_append_length] at hrep
        rcases mem_balanceErrors hbe hrep with ⟨b', p, -, -, rfl⟩ | ⟨b', m, t, -, -, -, -, h, -⟩
        · simp [ElementIdx.report]
        · simp [h]
  · intro p hv
    refine key p.acc (fun hr => hpart.2.1 p hv hr) ?_
    · intro e r' hx hst rep hrep
      rcases Run.step_some hst with ⟨st', x, hd, rfl⟩ | ⟨st', v, v2, bk, errs, hd, hbe, rfl⟩
      · simp only [List.drop_append_length, List.mem_singleton] at hrep
        subst hrep
        rcases State.directive_err hd with ⟨t, hv', -⟩ | ⟨b', hv', -⟩ | ⟨o', hv', -⟩ | ⟨c, hv', -⟩ | ⟨p', hv', hpad⟩ <;>
          rw [hv] at hv' <;> cases hv'
        rcases State.pad_err hpad with ⟨-, h⟩ | ⟨a, j, u, -, -, -, -, rfl⟩
        · rw [State.validateAccount_none] at hx
          rw [(State.validateAccount_none (e := { directive := ds.length })).2 hx] at h
          cases h
        · simp [ElementIdx.report, IndexedReport.relatedTo]
      · simp only [List.drop_append_length] at hrep
        rcases State.directive_ok hd with ⟨t, hv', -⟩ | ⟨b, hv', -⟩ | ⟨op, hv', -⟩ |
            ⟨cl, hv', -⟩ | ⟨p', v', hv', hpad, -⟩ | ⟨hpl, -⟩
        · rw [hv] at hv'; cases hv'
        · rw [hv] at hv'; cases hv'
        · rw [hv] at hv'; cases hv'
        · rw [hv] at hv'; cases hv'
        · obtain ⟨y, -, -, -, -, rfl, -⟩ := State.pad_ok hpad
          simp only [balanceErrors, Option.some.injEq] at hbe
          subst hbe
          simp at hrep
        · rw [hv] at hpl; simp [plainVariant] at hpl
  · intro t hv hn p hp'
    by_cases hr : Reopened ds p.acc
    · exact .inr hr
    · exact .inl (hpart.2.2 t hv hn p hp' hr)

/-- Cases: after an attempt to reopen it a closed account may be asserted, opening it is reported as of an open account, closing it as of a
closed one. -/
example :
    (errorsOf Toy.lib id {} [Toy.mkOpen 1 Ex.bank, Toy.mkClose 2 Ex.bank, Toy.mkOpen 3 Ex.bank, Toy.mkBal 4 Ex.bank ⟨0, 0⟩ Ex.nzd,
      Toy.mkOpen 5 Ex.bank, Toy.mkClose 6 Ex.bank]).map (fun l => l.map fun x => x.reason) =
      some [.accountClosed, .alreadyOpened, .alreadyClosed] := by decide +kernel

end Limabean
