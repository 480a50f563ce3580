/-
C04: the tolerance of a balance assertion.
-/
import Verif.Pod.Accumulator
import Verif.Spec.Ledger
import Verif.Props.Examples

namespace Limabean

/-- C04: the tolerance used is the explicit one, or zero for an amount without decimal places, or else twice the
multiplier (one half by default) times the place value of the last decimal place. -/
theorem C04_tolerance (L : BookLib) (env : Env L) (b : Raw.Balance) :
    (effectiveTolerance env b).val = Spec.tolerance env.tolerance.multiplier b := by
  unfold effectiveTolerance Spec.tolerance
  cases b.tolerance with
  | some t => rfl
  | none =>
    by_cases h : b.units.s = 0
    · simp [h]
    · simp only [gt_iff_lt, Nat.pos_of_ne_zero h, if_true, h, if_false, Dec.val_mul]
      have h1 : (Dec.mk 1 b.units.s).val = 1 / 10 ^ b.units.s := by simp [Dec.val]
      have h2 : Dec.two.val = 2 := by norm_num [Dec.val, Dec.two]
      rw [h1, h2]
      cases env.tolerance.multiplier with
      | none =>
        have h3 : (Dec.mk 5 1).val = 1 / 2 := by norm_num [Dec.val]
        simp only [Option.getD_none, Option.map_none, h3]; ring
      | some m => simp only [Option.getD_some, Option.map_some]; ring

/-- C04: the same number written with one more decimal place has a tenth of the tolerance. -/
theorem C04_trailing_zero (L : BookLib) (env : Env L) (acc cur : Str) (m : Int) (s : Nat) (hs : s ≠ 0) :
    (Dec.mk (m * 10) (s + 1)).val = (Dec.mk m s).val ∧
    (effectiveTolerance env { acc := acc, units := ⟨m * 10, s + 1⟩, cur := cur }).val =
      (effectiveTolerance env { acc := acc, units := ⟨m, s⟩, cur := cur }).val / 10 := by
  constructor
  · simp only [Dec.val, pow_succ]
    push_cast
    have := Dec.pow_ne s
    field_simp
  · rw [C04_tolerance, C04_tolerance]
    simp only [Spec.tolerance, hs, if_false, Nat.succ_ne_zero, pow_succ]
    have := Dec.pow_ne s
    field_simp

/-- With two decimal places and the default multiplier the tolerance is 0.01; with a multiplier of 1 it is 0.02. -/
example : Spec.tolerance none { acc := Ex.bank, units := ⟨10000, 2⟩, cur := Ex.nzd } = 1 / 100 := by
  norm_num [Spec.tolerance]
example : Spec.tolerance (some ⟨1, 0⟩) { acc := Ex.bank, units := ⟨10000, 2⟩, cur := Ex.nzd } = 2 / 100 := by
  norm_num [Spec.tolerance, Dec.val]
example : Spec.tolerance none { acc := Ex.bank, units := ⟨100, 0⟩, cur := Ex.nzd } = 0 := by
  norm_num [Spec.tolerance]

end Limabean
