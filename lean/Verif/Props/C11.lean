/-
C11: the account lifecycle.

Opens and closes are reported exactly as the lifecycle says (`C11_open`, `C11_close`). That the status of an account is
determined by its lifecycle fails after an attempt to reopen a closed account: the attempt is reported, but the account
counts as open from then on (`C11_reopened_usable`). `C11_status_partial` is without such attempts.
-/
import Verif.Proofs.Errors
import Verif.Props.Examples

namespace Limabean

open Spec

/-- The errors recorded for a list of directives, left-over pads aside; `none` if booking panics. -/
def errorsOf (L : BookLib) (order : AMap Str (Account L) → AMap Str (Account L)) (o : BookOptions)
    (ds : List Raw.Directive) : Option (List IndexedReport) :=
  (Run.loop (envOf L o order) 0 ds {}).map fun r => r.errors

/-- The last directive of a list adds one report, which is located at that directive. -/
def AddsReport (L : BookLib) (order : AMap Str (Account L) → AMap Str (Account L)) (o : BookOptions)
    (ds : List Raw.Directive) (raw : Raw.Directive) (reason : Reason) : Prop :=
  ∃ es rep, errorsOf L order o ds = some es ∧ errorsOf L order o (ds ++ [raw]) = some (es ++ [rep]) ∧
    rep.reason = reason ∧ rep.idx = { directive := ds.length }

/-- The last directive of a list adds no report. -/
def AddsNone (L : BookLib) (order : AMap Str (Account L) → AMap Str (Account L)) (o : BookOptions)
    (ds : List Raw.Directive) (raw : Raw.Directive) : Prop :=
  ∃ es, errorsOf L order o ds = some es ∧ errorsOf L order o (ds ++ [raw]) = some es

variable {L : BookLib}

theorem errorsOf_some {order : AMap Str (Account L) → AMap Str (Account L)} {o : BookOptions}
    {ds : List Raw.Directive} (h : errorsOf L order o ds ≠ none) :
    ∃ r, Run.loop (envOf L o order) 0 ds {} = some r ∧ errorsOf L order o ds = some r.errors := by
  unfold errorsOf at h ⊢
  cases hl : Run.loop (envOf L o order) 0 ds {} with
  | none => simp [hl] at h
  | some r => exact ⟨r, rfl, rfl⟩

theorem errorsOf_snoc {order : AMap Str (Account L) → AMap Str (Account L)} {o : BookOptions}
    {ds : List Raw.Directive} {raw : Raw.Directive} {r r' : Run L} (hl : Run.loop (envOf L o order) 0 ds {} = some r)
    (hs : r.step (envOf L o order) ds.length raw = some r') :
    errorsOf L order o (ds ++ [raw]) = some r'.errors := by
  unfold errorsOf
  rw [Run.loop_snoc.2 ⟨r, hl, by simpa using hs⟩]
  rfl

theorem addsReport_of_err {order : AMap Str (Account L) → AMap Str (Account L)} {o : BookOptions}
    {ds : List Raw.Directive} {raw : Raw.Directive} {r : Run L} (hl : Run.loop (envOf L o order) 0 ds {} = some r)
    {st : State L} {x : IndexedReport}
    (h : r.st.directive (envOf L o order) raw { directive := ds.length } r.booked = .err st x)
    (hi : x.idx = { directive := ds.length }) : AddsReport L order o ds raw x.reason :=
  ⟨r.errors, x, by simp [errorsOf, hl], errorsOf_snoc hl (step_of_err h), rfl, hi⟩

/-- C11, opening: an open directive is accepted iff the account was never opened before, and otherwise reported there. -/
theorem C11_open (L : BookLib) (order : AMap Str (Account L) → AMap Str (Account L)) (o : BookOptions)
    (ds : List Raw.Directive) (hp : errorsOf L order o ds ≠ none) (raw : Raw.Directive) (op : Raw.Open)
    (hv : raw.variant = .opn op) :
    (life ds op.acc = .never → AddsNone L order o ds raw) ∧
    (IsOpen ds op.acc → AddsReport L order o ds raw .alreadyOpened) ∧
    ((∃ o', life ds op.acc = .closed o') →
      AddsReport L order o ds raw .accountClosed ∨ Reopened ds op.acc ∧ AddsReport L order o ds raw .alreadyOpened) := by
  obtain ⟨r, hl, he⟩ := errorsOf_some hp
  have hlife := LifeInv.loop hl
  have hdir : ∀ e, r.st.directive (envOf L o order) raw e r.booked =
      (r.st.opn (envOf L o order) op e).plain r.booked := by
    intro e; unfold State.directive; rw [hv]
  have already : ∀ prev, r.st.opened.get op.acc = some prev → AddsReport L order o ds raw .alreadyOpened := by
    intro prev h
    have := addsReport_of_err (raw := raw) hl (st := r.st)
      (x := (ElementIdx.report { directive := ds.length } Reason.alreadyOpened).relatedTo prev)
      (by rw [hdir]; simp [State.opn, h, Res.plain]) rfl
    exact this
  refine ⟨?_, ?_, ?_⟩
  · intro h
    obtain ⟨h1, h2, -⟩ := hlife.never _ h
    refine ⟨r.errors, he, ?_⟩
    have : ∃ st', r.st.opn (envOf L o order) op { directive := ds.length } = .ok st' (.opn op) := by
      unfold State.opn
      simp only [h1, h2]
      exact ⟨_, rfl⟩
    obtain ⟨st', hst⟩ := this
    have := step_of_ok (n := ds.length) (raw := raw) (v := .opn op) (st := st') (by rw [hdir, hst]; rfl) (by simp)
    rw [errorsOf_snoc hl this]
  · rintro ⟨o', h⟩
    obtain ⟨-, ⟨e, h1⟩, -⟩ := hlife.opn _ _ h
    exact already e h1
  · rintro ⟨o', h⟩
    obtain ⟨-, ⟨e, h1⟩, -⟩ := hlife.closed _ _ h
    cases ho : r.st.opened.get op.acc with
    | some prev => exact Or.inr ⟨(hlife.reopened _ _ h).1 ⟨_, ho⟩, already prev ho⟩
    | none =>
      left
      have := addsReport_of_err (raw := raw) hl
        (st := { r.st with opened := r.st.opened.set op.acc { directive := ds.length } })
        (x := (ElementIdx.report { directive := ds.length } Reason.accountClosed).relatedTo e)
        (by rw [hdir]; simp [State.opn, ho, h1, Res.plain]) rfl
      exact this

/-- C11, closing: a close directive is accepted iff the account is open, and otherwise reported there. -/
theorem C11_close (L : BookLib) (order : AMap Str (Account L) → AMap Str (Account L)) (o : BookOptions)
    (ds : List Raw.Directive) (hp : errorsOf L order o ds ≠ none) (raw : Raw.Directive) (c : Raw.Close)
    (hv : raw.variant = .close c) :
    (IsOpen ds c.acc → AddsNone L order o ds raw) ∧
    (life ds c.acc = .never → AddsReport L order o ds raw .accountNotOpen) ∧
    ((∃ o', life ds c.acc = .closed o') →
      AddsReport L order o ds raw .accountNotOpen ∨ Reopened ds c.acc ∧ AddsReport L order o ds raw .alreadyClosed) := by
  obtain ⟨r, hl, he⟩ := errorsOf_some hp
  have hlife := LifeInv.loop hl
  have hdir : ∀ e, r.st.directive (envOf L o order) raw e r.booked = (r.st.close c e).plain r.booked := by
    intro e; unfold State.directive; rw [hv]
  have notOpen : r.st.opened.get c.acc = none → AddsReport L order o ds raw .accountNotOpen := by
    intro h
    have := addsReport_of_err (raw := raw) hl (st := r.st)
      (x := (ElementIdx.report { directive := ds.length } Reason.accountNotOpen))
      (by rw [hdir]; simp [State.close, h, Res.plain]) rfl
    exact this
  refine ⟨?_, ?_, ?_⟩
  · rintro ⟨o', h⟩
    obtain ⟨-, ⟨e, h1⟩, h2, -⟩ := hlife.opn _ _ h
    refine ⟨r.errors, he, ?_⟩
    have := step_of_ok (n := ds.length) (raw := raw) (v := .close c)
      (st := { r.st with opened := r.st.opened.del c.acc, closed := r.st.closed.set c.acc { directive := ds.length } })
      (by rw [hdir]; simp [State.close, h1, h2, Res.plain]) (by simp)
    rw [errorsOf_snoc hl this]
  · intro h
    exact notOpen (hlife.never _ h).1
  · rintro ⟨o', h⟩
    obtain ⟨-, ⟨e, h1⟩, -⟩ := hlife.closed _ _ h
    cases ho : r.st.opened.get c.acc with
    | none => exact Or.inl (notOpen ho)
    | some prev =>
      right
      refine ⟨(hlife.reopened _ _ h).1 ⟨_, ho⟩, ?_⟩
      have := addsReport_of_err (raw := raw) hl (st := r.st)
        (x := (ElementIdx.report { directive := ds.length } Reason.alreadyClosed).relatedTo e)
        (by rw [hdir]; simp [State.close, ho, h1, Res.plain]) rfl
      exact this

/-- How a reference to an account is answered: by its lifecycle. -/
def refusal : Life → Option Reason
  | .never => some .accountNotOpen
  | .opn _ => none
  | .closed _ => some .accountClosed

/-- C11, use: unless an attempt was made to reopen the account, a balance or a pad is refused for the account's status
exactly as the lifecycle says, and a transaction which is not reported has postings on open accounts only. -/
theorem C11_status_partial (L : BookLib) (hL : L.Lawful) (order : AMap Str (Account L) → AMap Str (Account L))
    (o : BookOptions) (ds : List Raw.Directive) (hp : errorsOf L order o ds ≠ none) (raw : Raw.Directive) :
    (∀ b, raw.variant = .balance b → ¬ Reopened ds b.acc → ∀ reason, reason = .accountNotOpen ∨ reason = .accountClosed →
      (refusal (life ds b.acc) = some reason ↔ AddsReport L order o ds raw reason)) ∧
    (∀ p, raw.variant = .pad p → ¬ Reopened ds p.acc → ∀ reason, reason = .accountNotOpen ∨ reason = .accountClosed →
      (refusal (life ds p.acc) = some reason ↔ AddsReport L order o ds raw reason)) ∧
    (∀ t, raw.variant = .transaction t → AddsNone L order o ds raw → ∀ p ∈ t.postings, ¬ Reopened ds p.acc →
      IsOpen ds p.acc) := by
  obtain ⟨r, hl, he⟩ := errorsOf_some hp
  have hlife := LifeInv.loop hl
  have hinv := StInv.loop hl
  -- what validation says
  have hval : ∀ acc, ¬ Reopened ds acc → ∀ e : ElementIdx,
      (r.st.validateAccount acc e).map (fun x => x.reason) = refusal (life ds acc) ∧
      ∀ x, r.st.validateAccount acc e = some x → x.idx = e := by
    intro acc hr e
    unfold State.validateAccount AMap.has
    cases hlf : life ds acc with
    | never =>
      obtain ⟨h1, h2, -⟩ := hlife.never _ hlf
      simp [h1, h2, refusal, ElementIdx.report]
    | opn o' =>
      obtain ⟨-, ⟨e', h1⟩, -⟩ := hlife.opn _ _ hlf
      simp [h1, refusal]
    | closed o' =>
      obtain ⟨-, ⟨e', h1⟩, -⟩ := hlife.closed _ _ hlf
      have h2 : r.st.opened.get acc = none := by
        rw [← get_none_of_has, hlife.reopened _ _ hlf]; exact hr
      simp [h1, h2, refusal, ElementIdx.report, IndexedReport.relatedTo]
  -- a directive whose first act is to validate the account
  have key : ∀ acc, ¬ Reopened ds acc →
      (∀ e x, r.st.validateAccount acc e = some x → r.st.directive (envOf L o order) raw e r.booked = .err r.st x) →
      (∀ e r', r.st.validateAccount acc e = none → r.step (envOf L o order) ds.length raw = some r' →
        ∀ rep ∈ r'.errors.drop r.errors.length, rep.reason ≠ .accountNotOpen ∧ rep.reason ≠ .accountClosed) →
      ∀ reason, reason = .accountNotOpen ∨ reason = .accountClosed →
        (refusal (life ds acc) = some reason ↔ AddsReport L order o ds raw reason) := by
    intro acc hr h1 h2 reason hreason
    have hv := hval acc hr { directive := ds.length }
    constructor
    · intro hlf
      rw [hlf] at hv
      obtain ⟨x, hx, hxr⟩ := Option.map_eq_some_iff.1 hv.1
      rw [← hxr]
      exact addsReport_of_err hl (h1 _ _ hx) (hv.2 x hx)
    · rintro ⟨es, rep, g1, g2, g3, g4⟩
      rw [he] at g1
      cases g1
      cases hx : r.st.validateAccount acc { directive := ds.length } with
      | some x =>
        have hst := step_of_err (h1 _ _ hx)
        rw [errorsOf_snoc hl hst] at g2
        simp only [Option.some.injEq, List.append_cancel_left_eq, List.cons.injEq, and_true] at g2
        rw [← hv.1, hx, g2]
        simp [g3]
      | none =>
        exfalso
        cases hst : r.step (envOf L o order) ds.length raw with
        | none =>
          have : errorsOf L order o (ds ++ [raw]) = none := by
            unfold errorsOf
            rw [Run.loop_append, hl]
            simp [Run.loop, hst]
          rw [this] at g2; cases g2
        | some r' =>
          rw [errorsOf_snoc hl hst] at g2
          simp only [Option.some.injEq] at g2
          have := h2 _ r' hx hst rep (by rw [g2]; simp)
          rw [g3] at this
          rcases hreason with rfl | rfl
          · exact this.1 rfl
          · exact this.2 rfl
  refine ⟨?_, ?_, ?_⟩
  · intro b hv hr
    refine key b.acc hr ?_ ?_
    · intro e x hx
      unfold State.directive State.balance
      simp only [hv, State.getValidAccount_err.2 hx]
    · intro e r' hx hst rep hrep
      rcases Run.step_some hst with ⟨st', x, hd, rfl⟩ | ⟨st', v, v2, bk, errs, hd, hbe, rfl⟩
      · simp only [List.drop_append_length, List.mem_singleton] at hrep
        subst hrep
        rcases State.directive_err hd with ⟨t, hv', -⟩ | ⟨b', hv', hb⟩ | ⟨o', hv', -⟩ | ⟨c, hv', -⟩ | ⟨p, hv', -⟩ <;>
          rw [hv] at hv' <;> cases hv'
        rcases State.balance_err hb with ⟨-, h | ⟨a, -, -, h⟩⟩
        · rw [State.validateAccount_none] at hx
          rw [(State.validateAccount_none (e := { directive := ds.length })).2 hx] at h
          cases h
        · obtain ⟨-, rfl⟩ := Account.validateCurrency_some h
          simp [ElementIdx.report, IndexedReport.relatedTo]
      · simp only [List.drop_append_length] at hrep
        rcases mem_balanceErrors hbe hrep with ⟨b', p, -, -, rfl⟩ | ⟨b', m, t, -, -, -, -, h, -⟩
        · simp [ElementIdx.report]
        · simp [h]
  · intro p hv hr
    refine key p.acc hr ?_ ?_
    · intro e x hx
      unfold State.directive State.pad
      simp only [hv, State.getValidAccount_err.2 hx]
    · intro e r' hx hst rep hrep
      rcases Run.step_some hst with ⟨st', x, hd, rfl⟩ | ⟨st', v, v2, bk, errs, hd, hbe, rfl⟩
      · simp only [List.drop_append_length, List.mem_singleton] at hrep
        subst hrep
        rcases State.directive_err hd with ⟨t, hv', -⟩ | ⟨b', hv', -⟩ | ⟨o', hv', -⟩ | ⟨c, hv', -⟩ | ⟨p', hv', hpad⟩ <;>
          rw [hv] at hv' <;> cases hv'
        rcases State.pad_err hpad with ⟨-, h⟩ | ⟨a, j, u, -, -, -, -, rfl⟩
        · rw [State.validateAccount_none] at hx
          rw [(State.validateAccount_none (e := { directive := ds.length })).2 hx] at h
          cases h
        · simp [ElementIdx.report, IndexedReport.relatedTo]
      · simp only [List.drop_append_length] at hrep
        rcases State.directive_ok hd with ⟨t, hv', -⟩ | ⟨b, hv', -⟩ | ⟨op, hv', -⟩ |
            ⟨cl, hv', -⟩ | ⟨p', v', hv', hpad, -⟩ | ⟨hpl, -⟩
        · rw [hv] at hv'; cases hv'
        · rw [hv] at hv'; cases hv'
        · rw [hv] at hv'; cases hv'
        · rw [hv] at hv'; cases hv'
        · obtain ⟨y, -, -, -, -, rfl, -⟩ := State.pad_ok hpad
          simp only [balanceErrors, Option.some.injEq] at hbe
          subst hbe
          simp at hrep
        · rw [hv] at hpl; simp [plainVariant] at hpl
  · rintro t hv ⟨es, g1, g2⟩ p hp hr
    rw [he] at g1; cases g1
    cases hst : r.step (envOf L o order) ds.length raw with
    | none =>
      have : errorsOf L order o (ds ++ [raw]) = none := by
        unfold errorsOf
        rw [Run.loop_append, hl]
        simp [Run.loop, hst]
      rw [this] at g2; cases g2
    | some r' =>
      rw [errorsOf_snoc hl hst] at g2
      simp only [Option.some.injEq] at g2
      rcases Run.step_some hst with ⟨st', x, hd, rfl⟩ | ⟨st', v, v2, bk, errs, hd, hbe, rfl⟩
      · simp at g2
      · rcases State.directive_ok hd with ⟨t', hv', ht, -⟩ | ⟨b, hv', -⟩ | ⟨op, hv', -⟩ |
            ⟨cl, hv', -⟩ | ⟨p', v', hv', -, -⟩ | ⟨hpl, -⟩
        · rw [hv] at hv'; cases hv'
          obtain ⟨bk', hb, hf, -⟩ := State.transaction_ok ht
          have hall : ∀ (i : Nat) (zs : List (Interpolated × Raw.PostingSpec)),
              r.st.firstPostingError { directive := ds.length } i zs = .ok () →
              ∀ z ∈ zs, r.st.opened.has z.2.acc = true := by
            intro i zs
            induction zs generalizing i with
            | nil => simp
            | cons z zs ih =>
              obtain ⟨ip, q⟩ := z
              intro h
              simp only [State.firstPostingError] at h
              cases hva : r.st.validateAccountAndCurrency q.acc ip.currency { directive := ds.length, posting := some i } with
              | err x => simp [hva] at h
              | panic => simp [hva] at h
              | ok u =>
                simp only [hva] at h
                intro z hz
                rcases List.mem_cons.1 hz with rfl | hz
                · unfold State.validateAccountAndCurrency at hva
                  cases hga : r.st.getValidAccount q.acc { directive := ds.length, posting := some i } with
                  | ok a => exact (State.getValidAccount_ok.1 hga).1
                  | err x => simp [hga] at hva
                  | panic => simp [hga] at hva
                · exact ih _ h z hz
          have hlen := hL.book_length _ _ _ _ _ _ hb
          obtain ⟨j, hj, rfl⟩ := List.getElem_of_mem hp
          have hjz : j < (bk'.interpolated.zip t.postings).length := by simp; omega
          have hmem := List.getElem_mem hjz
          rw [List.getElem_zip] at hmem
          have := hall 0 _ hf _ hmem
          rcases (hlife.opened_iff _).1 this with h | h
          · exact h
          · exact absurd h hr
        · rw [hv] at hv'; cases hv'
        · rw [hv] at hv'; cases hv'
        · rw [hv] at hv'; cases hv'
        · rw [hv] at hv'; cases hv'
        · rw [hv] at hpl; simp [plainVariant] at hpl

/-- C11 fails after a failed attempt to reopen: the account is closed, yet a transaction on it adds no report. -/
theorem C11_reopened_usable : ∃ ds t d, d.variant = .transaction t ∧ (∃ p ∈ t.postings, ∃ o, life ds p.acc = .closed o) ∧
    AddsNone Toy.lib id {} ds d := by
  refine ⟨[Toy.mkOpen 1 Ex.bank, Toy.mkClose 2 Ex.bank, Toy.mkOpen 3 Ex.bank], _,
    Toy.mkTxn 4 [(Ex.bank, ⟨0, 0⟩, Ex.nzd)], rfl, ⟨_, List.mem_cons_self, { acc := Ex.bank }, by decide +kernel⟩,
    [(ElementIdx.report { directive := 2 } Reason.accountClosed).relatedTo { directive := 1 }],
    by decide +kernel, by decide +kernel⟩

/-- Cases: reopening a closed account, and closing one which was never opened, in a ledger which goes on. -/
example : AddsReport Toy.lib id {} [Toy.mkOpen 1 Ex.bank, Toy.mkClose 2 Ex.bank] (Toy.mkOpen 3 Ex.bank) .accountClosed := by
  rcases (C11_open Toy.lib id {} [Toy.mkOpen 1 Ex.bank, Toy.mkClose 2 Ex.bank] (by decide +kernel) (Toy.mkOpen 3 Ex.bank) _ rfl).2.2
    ⟨{ acc := Ex.bank }, by decide +kernel⟩ with h | ⟨-, es, rep, h1, h2, h3, -⟩
  · exact h
  · exact ⟨es, rep, h1, h2, by
      have e1 : errorsOf Toy.lib id {} [Toy.mkOpen 1 Ex.bank, Toy.mkClose 2 Ex.bank] = some [] := by decide +kernel
      have e2 : (errorsOf Toy.lib id {} ([Toy.mkOpen 1 Ex.bank, Toy.mkClose 2 Ex.bank] ++ [Toy.mkOpen 3 Ex.bank])) =
        some [(ElementIdx.report { directive := 2 } Reason.accountClosed).relatedTo { directive := 1 }] := by decide +kernel
      rw [e1] at h1; cases h1
      rw [e2] at h2
      simp at h2
      rw [← h2]; rfl, by
      have e1 : errorsOf Toy.lib id {} [Toy.mkOpen 1 Ex.bank, Toy.mkClose 2 Ex.bank] = some [] := by decide +kernel
      have e2 : (errorsOf Toy.lib id {} ([Toy.mkOpen 1 Ex.bank, Toy.mkClose 2 Ex.bank] ++ [Toy.mkOpen 3 Ex.bank])) =
        some [(ElementIdx.report { directive := 2 } Reason.accountClosed).relatedTo { directive := 1 }] := by decide +kernel
      rw [e1] at h1; cases h1
      rw [e2] at h2
      simp at h2
      rw [← h2]; rfl⟩

example : AddsReport Toy.lib id {} [Toy.mkOpen 1 Ex.bank] (Toy.mkClose 2 Ex.equity) .accountNotOpen :=
  (C11_close Toy.lib id {} [Toy.mkOpen 1 Ex.bank] (by decide +kernel) (Toy.mkClose 2 Ex.equity) _ rfl).2.1 (by decide +kernel)

example : AddsReport Toy.lib id {} [Toy.mkOpen 1 Ex.bank, Toy.mkClose 2 Ex.bank] (Toy.mkBal 3 Ex.bank ⟨0, 0⟩ Ex.nzd)
    .accountClosed := by
  refine ((C11_status_partial Toy.lib Toy.lib_lawful id {} [Toy.mkOpen 1 Ex.bank, Toy.mkClose 2 Ex.bank] (by decide +kernel)
    (Toy.mkBal 3 Ex.bank ⟨0, 0⟩ Ex.nzd)).1 _ rfl ?_ _ (Or.inr rfl)).1 (by decide +kernel)
  exact not_reopened_loop (env := envOf Toy.lib {} id) (r := (Run.loop (envOf Toy.lib {} id) 0
    [Toy.mkOpen 1 Ex.bank, Toy.mkClose 2 Ex.bank] {}).getD {}) (by rfl) (by decide +kernel) _

end Limabean
