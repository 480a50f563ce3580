/-
Exact decimals: the model of `rust_decimal::Decimal` and of `java.math.BigDecimal`.

A decimal is a mantissa and a scale (number of decimal places). Simplification: mantissa and scale are
unbounded; the overflow panics and roundings of the 96-bit `rust_decimal` type are modelled apart, see `Pod/Decimal` and C74.
-/
import Mathlib.Data.Rat.Defs
import Mathlib.Algebra.Order.Field.Rat
import Mathlib.Algebra.Order.Ring.Abs
import Mathlib.Algebra.BigOperators.Group.List.Basic
import Mathlib.Tactic.Ring
import Mathlib.Tactic.FieldSimp
import Mathlib.Tactic.Positivity
import Mathlib.Tactic.Linarith
import Mathlib.Tactic.NormNum

namespace Limabean

/-- A decimal number: `m / 10^s`, written with `s` decimal places. -/
structure Dec where
  m : Int
  s : Nat
deriving DecidableEq, Repr

namespace Dec

/-- The number that a decimal denotes. -/
def val (a : Dec) : ℚ := (a.m : ℚ) / (10 : ℚ) ^ a.s

/-- `Decimal::ZERO`. -/
def zero : Dec := ⟨0, 0⟩

/-- `Decimal::TWO`. -/
def two : Dec := ⟨2, 0⟩

/-- Addition keeps the larger number of decimal places. -/
def add (a b : Dec) : Dec :=
  ⟨a.m * 10 ^ (max a.s b.s - a.s) + b.m * 10 ^ (max a.s b.s - b.s), max a.s b.s⟩

/-- Negation. -/
def neg (a : Dec) : Dec := ⟨-a.m, a.s⟩

/-- Subtraction. -/
def sub (a b : Dec) : Dec := add a (neg b)

/-- Multiplication adds the numbers of decimal places. -/
def mul (a b : Dec) : Dec := ⟨a.m * b.m, a.s + b.s⟩

/-- Absolute value. -/
def abs (a : Dec) : Dec := ⟨(a.m.natAbs : Int), a.s⟩

/-- Comparison by value: `a > b`. -/
def gt (a b : Dec) : Bool := decide (a.m * 10 ^ b.s > b.m * 10 ^ a.s)

/-- Equality by value (`==` of `rust_decimal`, `==` of Clojure). -/
def eqv (a b : Dec) : Bool := decide (a.m * 10 ^ b.s = b.m * 10 ^ a.s)

/-- `zero?`. -/
def isZero (a : Dec) : Bool := decide (a.m = 0)

/-- Sum of a list, from the left, starting from zero: `Iterator::sum`. -/
def sum (l : List Dec) : Dec := l.foldl add zero

theorem pow_ne (n : Nat) : ((10 : ℚ) ^ n) ≠ 0 := by positivity

@[simp] theorem val_zero : zero.val = 0 := by simp [val, zero]

@[simp] theorem val_add (a b : Dec) : (add a b).val = a.val + b.val := by
  have key : ∀ (x : Dec) (t : Nat), x.s ≤ t →
      ((x.m * 10 ^ (t - x.s) : Int) : ℚ) / 10 ^ t = (x.m : ℚ) / 10 ^ x.s := by
    intro x t h
    have : (10 : ℚ) ^ t = 10 ^ (t - x.s) * 10 ^ x.s := by
      rw [← pow_add]; congr 1; omega
    push_cast
    rw [this]
    have h1 := pow_ne (t - x.s)
    have h2 := pow_ne x.s
    field_simp
  unfold val add
  simp only
  rw [Int.cast_add, add_div, key a _ (le_max_left _ _), key b _ (le_max_right _ _)]

@[simp] theorem val_neg (a : Dec) : (neg a).val = -a.val := by
  simp [val, neg, neg_div]

@[simp] theorem val_sub (a b : Dec) : (sub a b).val = a.val - b.val := by
  simp [sub, sub_eq_add_neg]

@[simp] theorem val_mul (a b : Dec) : (mul a b).val = a.val * b.val := by
  simp only [val, mul, pow_add, Int.cast_mul]
  have h1 := pow_ne a.s
  have h2 := pow_ne b.s
  field_simp

@[simp] theorem val_abs (a : Dec) : (abs a).val = |a.val| := by
  simp only [val, abs]
  rw [abs_div, abs_of_pos (a := (10 : ℚ) ^ a.s) (by positivity)]
  congr 1
  rw [Int.natCast_natAbs, Int.cast_abs]

@[simp] theorem gt_iff (a b : Dec) : gt a b = true ↔ a.val > b.val := by
  simp only [gt, decide_eq_true_eq, val, gt_iff_lt]
  rw [div_lt_div_iff₀ (by positivity) (by positivity)]
  constructor
  · intro h; exact_mod_cast h
  · intro h; exact_mod_cast h

@[simp] theorem eqv_iff (a b : Dec) : eqv a b = true ↔ a.val = b.val := by
  simp only [eqv, decide_eq_true_eq, val]
  rw [div_eq_div_iff (pow_ne _) (pow_ne _)]
  constructor
  · intro h; exact_mod_cast h
  · intro h; exact_mod_cast h

@[simp] theorem isZero_iff (a : Dec) : isZero a = true ↔ a.val = 0 := by
  simp only [isZero, decide_eq_true_eq, val, div_eq_zero_iff, pow_ne, or_false]
  exact_mod_cast Iff.rfl

theorem add_comm (a b : Dec) : add a b = add b a := by
  simp only [add, max_comm b.s a.s, Int.add_comm]

theorem add_assoc (a b c : Dec) : add (add a b) c = add a (add b c) := by
  simp only [add, max_assoc, mk.injEq, and_true]
  set t := max a.s (max b.s c.s) with ht
  have h1 : a.s ≤ max a.s b.s := le_max_left _ _
  have h2 : b.s ≤ max a.s b.s := le_max_right _ _
  have h3 : b.s ≤ max b.s c.s := le_max_left _ _
  have h4 : c.s ≤ max b.s c.s := le_max_right _ _
  have h5 : max a.s b.s ≤ t := by omega
  have h6 : max b.s c.s ≤ t := by omega
  have e1 : t - a.s = (max a.s b.s - a.s) + (t - max a.s b.s) := by omega
  have e2 : t - b.s = (max a.s b.s - b.s) + (t - max a.s b.s) := by omega
  have e3 : t - b.s = (max b.s c.s - b.s) + (t - max b.s c.s) := by omega
  have e4 : t - c.s = (max b.s c.s - c.s) + (t - max b.s c.s) := by omega
  have p1 : (10 : Int) ^ (max a.s b.s - b.s) * 10 ^ (t - max a.s b.s)
      = 10 ^ (max b.s c.s - b.s) * 10 ^ (t - max b.s c.s) := by
    rw [← pow_add, ← pow_add, ← e2, e3]
  rw [e1, e4, pow_add, pow_add, Int.add_mul, Int.add_mul, Int.mul_assoc, Int.mul_assoc, p1]
  ring

theorem foldl_add_val (l : List Dec) (a : Dec) :
    (l.foldl add a).val = a.val + (l.map val).sum := by
  induction l generalizing a with
  | nil => simp
  | cons x xs ih => simp [ih, _root_.add_assoc]

@[simp] theorem val_sum (l : List Dec) : (sum l).val = (l.map val).sum := by
  simp [sum, foldl_add_val]

/-- The sum does not depend on the order of summation, not even in its number of decimal places. -/
theorem sum_perm {l l' : List Dec} (h : l.Perm l') : sum l = sum l' := by
  unfold sum
  exact h.foldl_eq' (fun x _ y _ z => by
    rw [add_assoc, add_comm x y, ← add_assoc]) zero

end Dec
end Limabean
