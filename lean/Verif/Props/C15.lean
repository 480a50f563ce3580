/-
C15: a failed balance is local.
-/
import Verif.Proofs.BalanceStep
import Verif.Props.C11
import Verif.Props.Examples

namespace Limabean

open Spec

variable {L : BookLib}

/-- The total of a currency held by an account and those below it. -/
def Run.total (r : Run L) (acc cur : Str) : ℚ :=
  ((r.st.accounts.filter fun ca => Below acc ca.1).map fun ca => (L.units ca.2.positions cur).val).sum

theorem Run.total_eq (r : Run L) (acc cur : Str) : r.total acc cur = r.st.held (fun a => Below acc a) cur := by
  rw [State.held_eq_filter]; rfl

/-- What a reported failure of an assertion says about the step. -/
theorem failed_balance {env : Env L} {n : Nat} {raw : Raw.Directive} {b : Raw.Balance} {r r' : Run L}
    (hi : StInv n r.booked r.st) (hv : raw.variant = .balance b) (hs : r.step env n raw = some r')
    {rep : IndexedReport} {t m : Dec} {c : Str} (he : r'.errors = r.errors ++ [rep])
    (hr : rep.reason = .accumulated t m c) :
    ∃ a, r.st.opened.has b.acc = true ∧ r.st.accounts.get b.acc = some a ∧ a.isCurrencyValid b.cur = true ∧
      a.pad = none ∧ r.st.marginOf env b = some m ∧ c = b.cur ∧ r'.st = r.st.resetTo b a m r.booked.length ∧
      r'.booked = r.booked ++ [mkBooked n raw (.balance { raw := b, margin := some m })] ∧
      t = (diagnose b.acc (reportBase b.cur ⟨match a.window with | some w => w.stop | none => 0, r.booked.length⟩
        r.booked) (r.booked.drop (match a.window with | some w => w.stop | none => 0))).1 := by
  rcases Run.step_some hs with ⟨st', x, hd, rfl⟩ | ⟨st', v, v2, bk, errs, hd, hbe, rfl⟩
  · exfalso
    simp only [List.append_cancel_left_eq, List.cons.injEq, and_true] at he
    subst he
    rcases State.directive_err hd with ⟨t', hv', ht⟩ | ⟨b', hv', hb⟩ | ⟨o', hv', -⟩ | ⟨c, hv', -⟩ | ⟨p', hv', -⟩ <;>
      rw [hv] at hv' <;> cases hv'
    obtain ⟨-, h | ⟨a, -, -, h⟩⟩ := State.balance_err hb
    · obtain ⟨-, ⟨c, -, rfl⟩ | ⟨-, rfl⟩⟩ := State.validateAccount_some h <;> cases hr
    · obtain ⟨-, rfl⟩ := Account.validateCurrency_some h
      cases hr
  · rcases State.directive_ok hd with ⟨t', hv', -⟩ | ⟨b', hv', hb, rfl⟩ | ⟨op, hv', -⟩ |
        ⟨cl, hv', -⟩ | ⟨p', v', hv', -⟩ | ⟨hpl, -⟩
    · rw [hv] at hv'; cases hv'
    · rw [hv] at hv'
      cases hv'
      simp only [List.append_cancel_left_eq] at he
      subst he
      obtain ⟨a, ho, ha, hc, hcase⟩ := State.balance_ok hb
      obtain ⟨h1, h2, h3⟩ := balance_step (env := env) hi hv ho ha hc
      rcases hcase with ⟨hm, rfl, rfl, rfl⟩ | ⟨m', hm, hp, rfl, rfl, rfl⟩ | ⟨m', i, e0, hm, hp, hf⟩
      · exfalso
        rw [h1 hm] at hs
        simp only [Option.some.injEq, Run.mk.injEq, List.append_cancel_left_eq] at hs
        obtain ⟨-, -, hs⟩ := hs
        cases hp : a.pad with
        | none => simp [hp] at hs
        | some p =>
          simp only [hp, Option.map_some, Option.toList_some, List.cons.injEq, and_true] at hs
          rw [← hs] at hr
          cases hr
      · obtain ⟨rep', t', k1, k2, k3, k4, k5⟩ := h2 m' hm hp
        rw [k5] at hs
        simp only [Option.some.injEq, Run.mk.injEq, List.append_cancel_left_eq, List.cons.injEq, and_true] at hs
        obtain ⟨-, -, rfl⟩ := hs
        rw [hr] at k1
        cases k1
        exact ⟨a, ho, ha, hc, hp, hm, rfl, rfl, by simp, k4⟩
      · exfalso
        obtain ⟨d, p, d2, t', src, -, -, -, -, -, -, -, rfl⟩ := State.fillPad_ok hf
        simp [balanceErrors] at hbe
    · rw [hv] at hv'; cases hv'
    · rw [hv] at hv'; cases hv'
    · rw [hv] at hv'; cases hv'
    · rw [hv] at hpl; simp [plainVariant] at hpl

/-- C15: after a failed assertion, the total of the account is the asserted amount; totals of accounts which are not at
or above it, and of other currencies, are as before; and the same assertion then succeeds (if its tolerance is not
negative). -/
theorem C15_local (L : BookLib) (hL : L.Lawful) (order : AMap Str (Account L) → AMap Str (Account L))
    (hf : ∀ m, (order m).Perm m) (o : BookOptions) (ds : List Raw.Directive) (raw : Raw.Directive) (b : Raw.Balance)
    (hv : raw.variant = .balance b) (r r' : Run L) (h : Run.loop (envOf L o order) 0 ds {} = some r)
    (h' : Run.loop (envOf L o order) 0 (ds ++ [raw]) {} = some r')
    (rep : IndexedReport) (t m : Dec) (c : Str) (he : r'.errors = r.errors ++ [rep])
    (hr : rep.reason = .accumulated t m c) :
    r'.total b.acc b.cur = b.units.val ∧
    (∀ acc cur, ¬ (Below acc b.acc ∧ cur = b.cur) → r'.total acc cur = r.total acc cur) ∧
    (0 ≤ tolerance o.tolerance.multiplier b → ∀ raw2, raw2.variant = .balance b →
      errorsOf L order o (ds ++ [raw] ++ [raw2]) = some r'.errors) := by
  have hfair : (envOf L o order).Fair := hf
  have hi := StInv.loop h
  have hs : r.step (envOf L o order) ds.length raw = some r' := by
    obtain ⟨r1, h1, h2⟩ := Run.loop_snoc.1 h'
    rw [h] at h1
    cases h1
    simpa using h2
  obtain ⟨a, ho, ha, hc, hp, hm, -, hst, hbk, -⟩ := failed_balance hi hv hs he hr
  have hheld : ∀ S c, r'.st.held S c = r.st.held S c + if S b.acc = true ∧ c = b.cur then m.val else 0 := by
    intro S c
    rw [hst, State.resetTo, State.held_set ha]
    simp only [Account.adjustAdd, Account.advance, hL.units_accumulate]
    cases S b.acc <;> simp
  have h1 : r'.total b.acc b.cur = b.units.val := by
    rw [Run.total_eq, hheld, marginOf_some hfair hm]
    simp [Below]
  refine ⟨h1, ?_, ?_⟩
  · intro acc cur hn
    rw [Run.total_eq, Run.total_eq, hheld, if_neg (by simpa using hn), add_zero]
  · intro htol raw2 hv2
    have hi' := StInv.loop h'
    have hget : r'.st.accounts.get b.acc = some ((a.advance r.booked.length).adjustAdd b.cur m) := by
      rw [hst]; simp [State.resetTo, State.setAccount]
    have ho' : r'.st.opened.has b.acc = true := by rw [hst]; exact ho
    have hm' : r'.st.marginOf (envOf L o order) b = none := by
      rw [marginOf_none_iff hfair, ← Run.total_eq, h1]
      simpa [envOf] using htol
    have hs2 := (balance_step (env := envOf L o order) hi' hv2 ho' hget hc).1 hm'
    rw [errorsOf_snoc h' (by simpa using hs2)]
    simp [Account.adjustAdd, Account.advance]

/-- A case: an assertion on a parent account fails; a repetition adds no report, and neither does one on the child. -/
example : (errorsOf Toy.lib id {} [Toy.mkOpen 1 Ex.bank, Toy.mkOpen 1 Ex.current, Toy.mkBal 2 Ex.bank ⟨7, 0⟩ Ex.nzd]).map
    List.length = some 1 ∧
  (errorsOf Toy.lib id {} [Toy.mkOpen 1 Ex.bank, Toy.mkOpen 1 Ex.current, Toy.mkBal 2 Ex.bank ⟨7, 0⟩ Ex.nzd,
    Toy.mkBal 3 Ex.bank ⟨7, 0⟩ Ex.nzd, Toy.mkBal 3 Ex.current ⟨0, 0⟩ Ex.nzd]).map List.length = some 1 := by
  decide +kernel

/-- Without the condition on the tolerance a repetition fails again. -/
example : (errorsOf Toy.lib id {} [Toy.mkOpen 1 Ex.bank,
    { date := Toy.day 2, variant := .balance { acc := Ex.bank, units := ⟨7, 0⟩, cur := Ex.nzd, tolerance := some ⟨-1, 0⟩ } },
    { date := Toy.day 2, variant := .balance { acc := Ex.bank, units := ⟨7, 0⟩, cur := Ex.nzd, tolerance := some ⟨-1, 0⟩ } }]).map
    List.length = some 2 := by
  decide +kernel

end Limabean
