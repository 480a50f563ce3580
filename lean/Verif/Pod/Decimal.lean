/-
Decimals of limited size: `rust_decimal::Decimal`, which the accumulator computes with
(rust/src/api/booking/accumulator.rs:6, 356-380, 391-402, 495-530, 698-706).

The crate is not part of /repo. It is a parameter here (`Arith`), with the contract `Arith.Lawful`: a result is exact if it can be written
with 96 bits and 28 decimal places, and a sum which is too large for any number of places panics. What happens in between (rounding) is
left open, and so is the number of decimal places of a sum. `rustDecimal` is an instance, for examples.
-/
import Verif.Basic.Dec

namespace Limabean

/-- Can the crate represent it? 96 bits of mantissa, at most 28 decimal places. -/
def Dec.fits (d : Dec) : Bool := decide (d.m.natAbs < 2 ^ 96) && decide (d.s ≤ 28)

/-- The operations of the crate which the accumulator uses; `none` is a panic. -/
structure Arith where
  /-- `+`: accumulator.rs:379 (`sum`), 516 -/
  add : Dec → Dec → Option Dec
  /-- `-`: accumulator.rs:704 -/
  sub : Dec → Dec → Option Dec
  /-- `*`: accumulator.rs:398 -/
  mul : Dec → Dec → Option Dec

/-- The contract assumed of the crate. -/
structure Arith.Lawful (A : Arith) : Prop where
  /-- sums which can be represented are exact, with no more places than those of the operands -/
  add_exact : ∀ a b, a.fits = true → b.fits = true → (a.add b).fits = true →
    ∃ r, A.add a b = some r ∧ r.val = a.val + b.val ∧ r.s ≤ max a.s b.s
  /-- the same for differences -/
  sub_exact : ∀ a b, a.fits = true → b.fits = true → (a.sub b).fits = true →
    ∃ r, A.sub a b = some r ∧ r.val = a.val - b.val ∧ r.s ≤ max a.s b.s
  /-- products which can be represented are exact -/
  mul_exact : ∀ a b, a.fits = true → b.fits = true → (a.mul b).fits = true →
    ∃ r, A.mul a b = some r ∧ r.val = a.val * b.val ∧ r.s ≤ a.s + b.s
  /-- a sum which is too large panics -/
  add_over : ∀ a b, 2 ^ 96 ≤ |a.val + b.val| → A.add a b = none

/-- Division by ten, rounding half to even. -/
def roundTenth (m : Int) : Int :=
  let q := m.natAbs / 10
  let r := m.natAbs % 10
  let n := if r > 5 ∨ (r = 5 ∧ q % 2 = 1) then q + 1 else q
  if m < 0 then -(n : Int) else n

/-- The number with the largest number of places that fits, `none` if there is none. -/
def rustFit (m : Int) : Nat → Option Dec
  | 0 => if m.natAbs < 2 ^ 96 then some ⟨m, 0⟩ else none
  | s + 1 => if m.natAbs < 2 ^ 96 ∧ s + 1 ≤ 28 then some ⟨m, s + 1⟩ else rustFit (roundTenth m) s

/-- Addition: an operand which is zero is left out, with its decimal places. -/
def rustAdd (a b : Dec) : Option Dec :=
  if a.m = 0 then rustFit b.m b.s else if b.m = 0 then rustFit a.m a.s else rustFit (a.add b).m (a.add b).s

/-- Decimals as `rust_decimal` has them, for examples. -/
def rustDecimal : Arith where
  add := rustAdd
  sub := fun a b => rustAdd a b.neg
  mul := fun a b => rustFit (a.mul b).m (a.mul b).s

theorem Dec.fits_iff (d : Dec) : d.fits = true ↔ d.m.natAbs < 2 ^ 96 ∧ d.s ≤ 28 := by simp [Dec.fits]

theorem rustFit_fits {d : Dec} (h : d.fits = true) : rustFit d.m d.s = some d := by
  rw [Dec.fits_iff] at h
  obtain ⟨m, s⟩ := d
  cases s with
  | zero => simp only [rustFit, if_pos h.1]
  | succ s => simp only [rustFit, if_pos h]

theorem Dec.neg_fits {d : Dec} (h : d.fits = true) : d.neg.fits = true := by
  rw [Dec.fits_iff] at *
  simpa [Dec.neg] using h

theorem Dec.val_of_zero {d : Dec} (h : d.m = 0) : d.val = 0 := by simp [Dec.val, h]

theorem rustAdd_exact {a b : Dec} (ha : a.fits = true) (hb : b.fits = true) (hs : (a.add b).fits = true) :
    ∃ r, rustAdd a b = some r ∧ r.val = a.val + b.val ∧ r.s ≤ max a.s b.s := by
  unfold rustAdd
  by_cases h1 : a.m = 0
  · rw [if_pos h1, rustFit_fits hb]
    exact ⟨b, rfl, by simp [Dec.val_of_zero h1], le_max_right _ _⟩
  · rw [if_neg h1]
    by_cases h2 : b.m = 0
    · rw [if_pos h2, rustFit_fits ha]
      exact ⟨a, rfl, by simp [Dec.val_of_zero h2], le_max_left _ _⟩
    · rw [if_neg h2, rustFit_fits hs]
      exact ⟨_, rfl, Dec.val_add _ _, le_refl _⟩

theorem rustFit_large {s : Nat} {m : Int} (h : 10 ^ s * 2 ^ 96 ≤ m.natAbs) : rustFit m s = none := by
  induction s generalizing m with
  | zero =>
    simp only [rustFit]
    rw [if_neg (by rw [pow_zero, one_mul] at h; exact Nat.not_lt.2 h)]
  | succ s ih =>
    have h10 : 1 ≤ 10 ^ s := Nat.one_le_pow _ _ (by norm_num)
    have hm : 10 ^ s * 2 ^ 96 ≤ (roundTenth m).natAbs := by
      have : 10 ^ s * 2 ^ 96 ≤ m.natAbs / 10 := by
        rw [Nat.le_div_iff_mul_le (by norm_num)]
        calc 10 ^ s * 2 ^ 96 * 10 = 10 ^ (s + 1) * 2 ^ 96 := by ring
          _ ≤ _ := h
      generalize 10 ^ s * 2 ^ 96 = k at this
      unfold roundTenth
      simp only
      split <;> split <;> omega
    simp only [rustFit]
    rw [if_neg, ih hm]
    rintro ⟨h1, -⟩
    have h2 : 10 ^ (s + 1) * 2 ^ 96 = 10 * (10 ^ s * 2 ^ 96) := by ring
    have h3 : 2 ^ 96 ≤ 10 ^ s * 2 ^ 96 := Nat.le_mul_of_pos_left _ h10
    rw [h2] at h
    generalize 10 ^ s * 2 ^ 96 = k at h h3
    generalize 2 ^ 96 = j at h1 h3
    omega

theorem Dec.large_of_val {d : Dec} (h : 2 ^ 96 ≤ |d.val|) : 10 ^ d.s * 2 ^ 96 ≤ d.m.natAbs := by
  have hp : (0 : ℚ) < 10 ^ d.s := by positivity
  unfold Dec.val at h
  rw [abs_div, abs_of_pos hp, le_div_iff₀ hp] at h
  have h2 : (2 ^ 96 : ℚ) * 10 ^ d.s ≤ ((d.m.natAbs : Nat) : ℚ) := by
    have : ((d.m.natAbs : Nat) : ℚ) = |(d.m : ℚ)| := by
      rw [← Int.cast_natCast, Int.natCast_natAbs, Int.cast_abs]
    rw [this]; exact h
  have h3 : ((10 ^ d.s * 2 ^ 96 : Nat) : ℚ) ≤ (d.m.natAbs : Nat) := by
    push_cast
    linarith [mul_comm ((2 : ℚ) ^ 96) (10 ^ d.s)]
  exact_mod_cast h3

/-- The instance meets the contract. -/
theorem rustDecimal_lawful : rustDecimal.Lawful where
  add_exact := fun _ _ => rustAdd_exact
  sub_exact := by
    intro a b ha hb hs
    obtain ⟨r, h1, h2, h3⟩ := rustAdd_exact ha (Dec.neg_fits hb) hs
    exact ⟨r, h1, by rw [h2, Dec.val_neg]; ring, by simpa [Dec.neg] using h3⟩
  mul_exact := by
    intro a b _ _ hs
    exact ⟨_, rustFit_fits hs, Dec.val_mul _ _, le_refl _⟩
  add_over := by
    intro a b h
    unfold rustDecimal rustAdd
    simp only
    by_cases h1 : a.m = 0
    · rw [if_pos h1]
      rw [Dec.val_of_zero h1, zero_add] at h
      exact rustFit_large (Dec.large_of_val h)
    · rw [if_neg h1]
      by_cases h2 : b.m = 0
      · rw [if_pos h2]
        rw [Dec.val_of_zero h2, add_zero] at h
        exact rustFit_large (Dec.large_of_val h)
      · rw [if_neg h2]
        rw [← Dec.val_add] at h
        exact rustFit_large (Dec.large_of_val h)

end Limabean
