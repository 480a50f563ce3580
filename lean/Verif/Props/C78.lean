/-
C78: the report of a failed balance assertion is the statement of the account.
-/
import Verif.Proofs.StatementLemmas

namespace Limabean

open Spec

variable {L : BookLib}

theorem account_not_gap {s : Tally L} {acc : Str} {f : Fault} (h : s.account acc = some f) (u : Dec) (c : Str) : f ≠ .gap u c := by
  unfold Tally.account at h
  split at h <;> first | (cases h; done) | (cases h; simp)

theorem usage_not_gap {s : Tally L} {acc cur : Str} {f : Fault} (h : s.usage acc cur = some f) (u : Dec) (c : Str) : f ≠ .gap u c := by
  unfold Tally.usage at h
  cases ha : s.account acc with
  | some g =>
    rw [ha] at h
    simp only [Option.some.injEq] at h
    subst h
    exact account_not_gap ha u c
  | none =>
    rw [ha] at h
    cases ht : s.terms acc with
    | none => simp [ht] at h
    | some x =>
      simp only [ht] at h
      split at h
      · cases h
      · cases h; simp

theorem wrongPosting_not_gap {s : Tally L} (l : List (Interpolated × Raw.PostingSpec)) {i j : Nat} {f : Fault}
    (h : s.wrongPosting i l = some (j, f)) (u : Dec) (c : Str) : f ≠ .gap u c := by
  induction l generalizing i with
  | nil => cases h
  | cons x l ih =>
    obtain ⟨ip, p⟩ := x
    simp only [Tally.wrongPosting] at h
    cases hu : s.usage p.acc ip.currency with
    | none => rw [hu] at h; exact ih h
    | some g =>
      rw [hu] at h
      simp only [Option.some.injEq, Prod.mk.injEq] at h
      rw [← h.2]
      exact usage_not_gap hu u c

/-- Gaps are found at assertions only. -/
theorem step_gap {opt : Option Booking} {tol : Tolerance} {s s' : Tally L} {n : Nat} {d : Raw.Directive} {fs : List Finding}
    (h : s.step opt tol n d = some (s', fs)) {f : Finding} (hf : f ∈ fs) {u : Dec} {c : Str} (hg : f.fault = .gap u c) :
    f.directive = n ∧ f.posting = none ∧ ∃ b, d.variant = .balance b ∧ s.usage b.acc b.cur = none ∧ s.pending b.acc = none ∧
      u = b.units.sub (s.total b.acc b.cur) ∧ c = b.cur ∧ u.abs.gt (toleranceDec tol.multiplier b) = true := by
  unfold Tally.step at h
  cases hv : d.variant with
  | opn o =>
    simp only [hv] at h
    split at h <;> simp only [Tally.unchanged, Option.some.injEq, Prod.mk.injEq] at h <;> obtain ⟨-, rfl⟩ := h <;>
      simp only [List.mem_singleton, List.not_mem_nil] at hf <;> subst hf <;> cases hg
  | close o =>
    simp only [hv] at h
    split at h <;> simp only [Tally.unchanged, Option.some.injEq, Prod.mk.injEq] at h <;> obtain ⟨-, rfl⟩ := h <;>
      simp only [List.mem_singleton, List.not_mem_nil] at hf <;> subst hf <;> cases hg
  | transaction t =>
    simp only [hv] at h
    split at h
    · simp only [Tally.unchanged, Option.some.injEq, Prod.mk.injEq] at h
      obtain ⟨-, rfl⟩ := h
      simp only [List.mem_singleton] at hf
      subst hf
      cases hg
    · split at h
      · rename_i i g hw
        simp only [Option.some.injEq, Prod.mk.injEq] at h
        obtain ⟨-, rfl⟩ := h
        simp only [List.mem_singleton] at hf
        subst hf
        exact absurd hg (wrongPosting_not_gap _ hw u c)
      · simp only [Option.some.injEq, Prod.mk.injEq] at h
        obtain ⟨-, rfl⟩ := h
        cases hf
  | pad p =>
    simp only [hv] at h
    cases ha : s.account p.acc with
    | some g =>
      simp only [ha, Tally.unchanged, Option.some.injEq, Prod.mk.injEq] at h
      obtain ⟨-, rfl⟩ := h
      simp only [List.mem_singleton] at hf
      subst hf
      exact absurd hg (account_not_gap ha u c)
    | none =>
      cases hp : s.pending p.acc with
      | none =>
        simp only [ha, hp, Option.some.injEq, Prod.mk.injEq] at h
        obtain ⟨-, rfl⟩ := h
        cases hf
      | some x =>
        simp only [ha, hp, Option.some.injEq, Prod.mk.injEq] at h
        obtain ⟨-, rfl⟩ := h
        simp only [List.mem_singleton] at hf
        subst hf
        cases hg
  | balance b =>
    simp only [hv] at h
    cases hu : s.usage b.acc b.cur with
    | some g =>
      simp only [hu, Tally.unchanged, Option.some.injEq, Prod.mk.injEq] at h
      obtain ⟨-, rfl⟩ := h
      simp only [List.mem_singleton] at hf
      subst hf
      exact absurd hg (usage_not_gap hu u c)
    | none =>
      simp only [hu] at h
      cases hgt : (b.units.sub (s.total b.acc b.cur)).abs.gt (toleranceDec tol.multiplier b) <;>
        cases hp : s.pending b.acc <;> simp only [hgt, hp] at h
      · cases h; cases hf
      · cases h
        simp only [List.mem_singleton] at hf
        subst hf
        cases hg
      · cases h
        simp only [List.mem_singleton] at hf
        subst hf
        cases hg
        exact ⟨rfl, rfl, b, rfl, hu, hp, rfl, rfl, hgt⟩
      · split at h
        · cases h; cases hf
        · cases h
  | _ =>
    simp only [hv, Option.some.injEq, Prod.mk.injEq] at h
    obtain ⟨-, rfl⟩ := h
    cases hf

theorem notes_snoc {opt : Option Booking} {tol : Tolerance} {pre : List Raw.Directive} {d : Raw.Directive} :
    ∀ {n : Nat} {s s1 s2 : Tally L} {l l1 : List Noted} {fs : List Finding},
    Tally.notes opt tol n s l pre = some (s1, l1) → s1.step opt tol (n + pre.length) d = some (s2, fs) →
    Tally.notes opt tol n s l (pre ++ [d]) = some (s2, s1.note opt tol l1 (n + pre.length) d) := by
  induction pre with
  | nil =>
    intro n s s1 s2 l l1 fs h hs
    simp only [Tally.notes, Option.some.injEq, Prod.mk.injEq] at h
    obtain ⟨rfl, rfl⟩ := h
    simp only [List.length_nil, Nat.add_zero] at hs
    simp only [List.nil_append, Tally.notes, hs, List.length_nil, Nat.add_zero]
  | cons x pre ih =>
    intro n s s1 s2 l l1 fs h hs
    simp only [List.cons_append, Tally.notes] at h ⊢
    cases hx : s.step opt tol n x with
    | none => rw [hx] at h; cases h
    | some q =>
      obtain ⟨s', fs'⟩ := q
      rw [hx] at h
      simp only at h ⊢
      have e : n + (x :: pre).length = n + 1 + pre.length := by simp; omega
      rw [e] at hs ⊢
      exact ih h hs

theorem announced {xs : List IndexedReport} {fs : List Finding} (h : List.Forall₂ Announces xs fs) {rep : IndexedReport}
    (hr : rep ∈ xs) : ∃ f ∈ fs, Announces rep f := by
  induction h with
  | nil => cases hr
  | cons hh _ ih =>
    rcases List.mem_cons.1 hr with rfl | hr
    · exact ⟨_, by simp, hh⟩
    · obtain ⟨f, h1, h2⟩ := ih hr
      exact ⟨f, by simp [h1], h2⟩

/-- The step of a failed assertion. -/
theorem step_statement {order : AMap Str (Account L) → AMap Str (Account L)} {o : BookOptions}
    (hf : (envOf L o order).Fair) {n : Nat} {raw : Raw.Directive} {b : Raw.Balance} {r r' : Run L} {s : Tally L} {l : List Noted}
    (hi : StInv n r.booked r.st) (hw : WindowInv r.booked r.st) (ht : Tal o.bookingMethod r.booked r.st s)
    (hn : Notes n r.booked l) (h0 : ∀ d, r.booked[0]? = some d → ∀ b, d.variant ≠ .balance b)
    (hv : raw.variant = .balance b) (hu : s.usage b.acc b.cur = none) (hp : s.pending b.acc = none)
    (hgt : (b.units.sub (s.total b.acc b.cur)).abs.gt (toleranceDec o.tolerance.multiplier b) = true)
    (hs : r.step (envOf L o order) n raw = some r') :
    r'.errors = r.errors ++
      [{ reason := .accumulated (statementTotal b.acc b.cur l) (b.units.sub (s.total b.acc b.cur)) b.cur
         idx := { directive := n }
         annotation := some (shownLines b.acc (statementLines b.acc b.cur l)) }] := by
  rcases ht.validate b.acc b.cur { directive := n } with ⟨f, x, h1, -⟩ | ⟨-, h2⟩
  · rw [hu] at h1; cases h1
  · obtain ⟨a, ho, ha, hc⟩ : ∃ a, r.st.opened.has b.acc = true ∧ r.st.accounts.get b.acc = some a ∧
        a.isCurrencyValid b.cur = true := by
      unfold State.validateAccountAndCurrency at h2
      cases hg : r.st.getValidAccount b.acc { directive := n } with
      | panic => simp [hg] at h2
      | err y => simp [hg] at h2
      | ok a =>
        simp only [hg] at h2
        cases hc : a.validateCurrency b.cur { directive := n } with
        | some y => simp [hc] at h2
        | none => exact ⟨a, (State.getValidAccount_ok.1 hg).1, (State.getValidAccount_ok.1 hg).2,
            Account.validateCurrency_none.1 hc⟩
    have hpad : a.pad = none := by
      rcases ht.getValid b.acc { directive := n } with ⟨f, x, -, g2, -⟩ | ⟨x, k, op, -, -, -, -, g5, g6, -, g8⟩
      · rw [(State.getValidAccount_ok (e := { directive := n })).2 ⟨ho, ha⟩] at g2
        cases g2
      · rw [ha] at g6
        cases g6
        rw [hp] at g5
        generalize a.pad = q at g5
        cases g5
        rfl
    have hm := ht.margin hi.wfA hf rfl b
    rw [hgt] at hm
    simp only [if_true] at hm
    generalize hgap : b.units.sub (s.total b.acc b.cur) = m at hm ⊢
    have heq := State.balance_eq (env := envOf L o order) (e := { directive := n }) (bk := r.booked) ho ha hc
    rw [hm, hpad] at heq
    simp only at heq
    have hi' : StInv n r.booked (r.st.resetTo b a m r.booked.length) := hi.balance heq
    have hget : (r.st.resetTo b a m r.booked.length).accounts.get b.acc =
        some ((a.advance r.booked.length).adjustAdd b.cur m) := by
      simp [State.resetTo, State.setAccount, AMap.get_set]
    obtain ⟨start, hwin, hnone, hsome⟩ : ∃ start, ((a.advance r.booked.length).adjustAdd b.cur m).window =
        some ⟨start, r.booked.length⟩ ∧ (a.window = none → start = 0) ∧ ∀ w, a.window = some w → start = w.stop := by
      refine ⟨_, rfl, ?_, ?_⟩
      · intro h; rw [h]
      · intro w h; rw [h]
    have hrep := balanceReport_some hi' hget hwin m b.cur { directive := n }
    have hdiag := report_statement hn r.st hw ha b.cur start r.booked.length hnone hsome h0
    simp only [List.take_length, hdiag] at hrep
    unfold Run.step State.directive at hs
    simp only [hv, heq, balanceErrors, hrep] at hs
    cases hs
    simp only [List.nil_append, List.append_cancel_left_eq, List.cons.injEq, and_true, IndexedReport.mk.injEq, true_and,
      Option.some.injEq]
    unfold shownLines
    rw [List.map_map]
    refine List.map_congr_left fun x hx => ?_
    simp only [Function.comp, rowOf, DiagRow.mk.injEq, true_and, and_true]
    have : (1 < (List.map (fun x => x.2.1) (List.map (rowOf b.acc) (statementLines b.acc b.cur l))).eraseDups.length) ↔
        ∃ y ∈ statementLines b.acc b.cur l, ∃ z ∈ statementLines b.acc b.cur l, y.acc ≠ z.acc := by
      rw [several_iff]
      simp only [List.map_map, List.mem_map, Function.comp, rowOf]
      constructor
      · rintro ⟨_, ⟨y, hy, rfl⟩, _, ⟨z, hz, rfl⟩, hne⟩
        exact ⟨y, hy, z, hz, hne⟩
      · rintro ⟨y, hy, z, hz, hne⟩
        exact ⟨_, ⟨y, hy, rfl⟩, _, ⟨z, hz, rfl⟩, hne⟩
    simp only [this, decide_eq_true_eq]

/-- C78: for every ledger, a report of booking which says that an amount was accumulated is about a balance assertion, and is
in full: the amount by which the assertion is off, and the statement of the account. The statement has one line for each
amount moved on the account or below it, by the transactions without faults and by the pads which were needed, since the last
assertion on this very account, in the order of the ledger, each with the running total. The first total starts from
the amount of that last assertion, if it was of the same currency, or else from zero; the name of the account is shown, without that
of the statement, exactly if the lines are not all of one account; the accumulated amount is the last total. -/
theorem C78_statement (L : BookLib) (hL : L.Lawful) (order : AMap Str (Account L) → AMap Str (Account L))
    (hf : ∀ m, (order m).Perm m) (o : BookOptions) (ds : List Raw.Directive) (es : List IndexedReport)
    (h : book L order o ds = .failure es) (rep : IndexedReport) (hr : rep ∈ es) (t m : Dec) (c : Str)
    (hreason : rep.reason = .accumulated t m c) :
    ∃ pre d post, ds = pre ++ d :: post ∧ IsStatement L o pre d rep := by
  unfold book collect at h
  cases hl : Run.loop (envOf L o order) 0 ds {} with
  | none => rw [hl] at h; cases h
  | some r =>
    rw [hl] at h
    have hfair : (envOf L o order).Fair := hf
    have inv := Run.loop_induction (envOf L o order) (fun pre r => Run.loop (envOf L o order) 0 pre {} = some r ∧
        (∃ s l, Tally.notes o.bookingMethod o.tolerance 0 (Tally.init L) [] pre = some (s, l) ∧
          Tal o.bookingMethod r.booked r.st s ∧ Notes pre.length r.booked l) ∧
        ∀ rep ∈ r.errors, ∀ t m c, rep.reason = .accumulated t m c →
          ∃ pre1 d post, pre = pre1 ++ d :: post ∧ IsStatement L o pre1 d rep)
      ⟨rfl, ⟨_, _, rfl, Tal.init _, ⟨rfl, by simp, by simp⟩⟩, by simp⟩ (by
        rintro pre raw r r' ⟨h1, ⟨s, l, h2, ht, hn⟩, h3⟩ hs
        have hl' : Run.loop (envOf L o order) 0 (pre ++ [raw]) {} = some r' := Run.loop_snoc.2 ⟨r, h1, by simpa using hs⟩
        have hi := StInv.loop h1
        have haud := audit_step hL hfair raw hi ht
        rw [hs] at haud
        cases hst : s.step o.bookingMethod o.tolerance pre.length raw with
        | none => rw [hst] at haud; exact haud.elim
        | some q =>
          obtain ⟨s', fs⟩ := q
          rw [hst] at haud
          obtain ⟨ht', xs, hx, hxs⟩ := haud
          refine ⟨hl', ⟨s', _, notes_snoc h2 (by simpa using hst), ht', ?_⟩, ?_⟩
          · have := hn.step hL hfair hi ht hs
            simpa using this
          · intro rep hrep t m c hreason
            rw [hx] at hrep
            rcases List.mem_append.1 hrep with hrep | hrep
            · obtain ⟨p1, d, post, rfl, hd⟩ := h3 rep hrep t m c hreason
              exact ⟨p1, d, post ++ [raw], by simp, hd⟩
            · refine ⟨pre, raw, [], rfl, ?_⟩
              obtain ⟨f, hfm, ha⟩ := announced hxs hrep
              have hg : f.fault = .gap m c := by
                have := ha.said
                rw [hreason] at this
                generalize f.fault = g at this
                generalize rep.related = rel at this
                cases this
                rfl
              obtain ⟨k1, k2, b, hv, hu, hp, hm, hc, hgt⟩ := step_gap hst hfm hg
              have hstep := step_statement hfair hi (WindowInv.loop h1) ht hn (fun d hd b => first_not_balance h1 hd b) hv hu hp
                (by rw [← hm]; exact hgt) hs
              rw [hx] at hstep
              simp only [List.append_cancel_left_eq] at hstep
              rw [hstep, List.mem_singleton] at hrep
              exact ⟨b, s, l, hv, h2, hrep⟩) hl
    simp only [Run.validate] at h
    split at h
    · cases h
    · cases h
      rcases List.mem_append.1 hr with hr | hr
      · exact inv.2.2 rep hr t m c hreason
      · exfalso
        unfold State.leftOverPads at hr
        obtain ⟨ca, -, hca⟩ := List.mem_filterMap.1 hr
        cases hp : ca.2.pad with
        | none => rw [hp] at hca; cases hca
        | some p => rw [hp] at hca; cases hca; cases hreason

/-- The last total of a statement: what it starts from, and all that was moved. -/
theorem C78_closing (acc cur : Str) (l : List Noted) :
    (statementTotal acc cur l).val =
      (openingOf acc cur l).val + ((movedAt acc (sinceLast acc l)).map fun x => x.2.2.2.val).sum := by
  have key : ∀ (m : List (Date × Option Str × Str × Dec)) (t : Dec), (endOf t m).val = t.val + (m.map fun x => x.2.2.2.val).sum := by
    intro m
    induction m with
    | nil => intro t; simp [endOf]
    | cons x m ih =>
      intro t
      have := ih (t.add x.2.2.2)
      simp only [endOf, List.foldl_cons, List.map_cons, List.sum_cons, Dec.val_add] at this ⊢
      rw [this]
      ring
  unfold statementTotal statementLines
  rw [runningFrom_last _ _ _ fun _ => rfl]
  exact key _ _

/-! ### An example -/

namespace Ex

/-- The account below which another is. -/
def assets : Str := str% "Assets:Bank"
/-- The account below it. -/
def cheque : Str := str% "Assets:Bank:Cheque"

/-- Two assertions on an account, with transactions and a pad below it in between. -/
def stated : List Raw.Directive :=
  [ Toy.mkOpen 1 assets, Toy.mkOpen 1 cheque, Toy.mkOpen 1 equity,
    Toy.mkTxn 2 [(assets, ⟨10, 0⟩, nzd), (equity, ⟨-10, 0⟩, nzd)],
    Toy.mkBal 3 assets ⟨10, 0⟩ nzd,
    Toy.mkPad 4 cheque equity,
    Toy.mkTxn 5 [(equity, ⟨-3, 0⟩, nzd), (assets, ⟨3, 0⟩, nzd)],
    Toy.mkBal 6 cheque ⟨5, 0⟩ nzd ]

/-- The assertion which fails. -/
def off : Raw.Directive := Toy.mkBal 7 assets ⟨20, 0⟩ nzd

/-- The report has the pad, once its amount is known, and the transaction: 10 and 5 and 3 are 18, and 2 are missing. -/
theorem stated_report : book Toy.lib id {} (stated ++ [off]) = .failure
    [{ reason := .accumulated ⟨18, 0⟩ ⟨2, 0⟩ nzd
       idx := { directive := 8 }
       annotation := some
         [ { date := Toy.day 4, acc := some (str% ":Cheque"), units := ⟨5, 0⟩, total := ⟨15, 0⟩, description := none },
           { date := Toy.day 5, acc := some [], units := ⟨3, 0⟩, total := ⟨18, 0⟩, description := none } ] }] := by
  decide +kernel

example : ∃ pre d post, stated ++ [off] = pre ++ d :: post ∧ IsStatement Toy.lib {} pre d
    { reason := .accumulated ⟨18, 0⟩ ⟨2, 0⟩ nzd
      idx := { directive := 8 }
      annotation := some
        [ { date := Toy.day 4, acc := some (str% ":Cheque"), units := ⟨5, 0⟩, total := ⟨15, 0⟩, description := none },
          { date := Toy.day 5, acc := some [], units := ⟨3, 0⟩, total := ⟨18, 0⟩, description := none } ] } :=
  C78_statement Toy.lib Toy.lib_lawful id fair_id {} _ _ stated_report _ (by simp) _ _ _ rfl

end Ex

end Limabean
