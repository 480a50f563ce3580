/-
The subaccount test against account components.
-/
import Verif.Spec.Ledger
import Verif.Pod.Accumulator

namespace Limabean

theorem intercalate_append {s : Str} {xs ys : List Str} (hx : xs ≠ []) (hy : ys ≠ []) :
    s.intercalate (xs ++ ys) = s.intercalate xs ++ s ++ s.intercalate ys := by
  induction xs with
  | nil => exact absurd rfl hx
  | cons x xs ih =>
    cases xs with
    | nil =>
      cases ys with
      | nil => exact absurd rfl hy
      | cons y ys => simp
    | cons x' xs =>
      have := ih (by simp)
      simp only [List.cons_append] at this ⊢
      simp only [List.intercalate_cons_cons, this, List.append_assoc]

theorem isNonstrictSubaccount_iff (a b : Str) :
    isNonstrictSubaccount a b = true ↔ b = a ∨ ∃ r, b = a ++ ':' :: r := by
  unfold isNonstrictSubaccount
  cases h : stripPrefix b a with
  | none =>
    simp only [Bool.false_eq_true, false_iff, not_or, not_exists]
    constructor
    · intro hab
      have := (stripPrefix_eq_some (s := b) (p := a) (r := [])).2 (by simp [hab])
      rw [h] at this; cases this
    · intro r hab
      have := (stripPrefix_eq_some (s := b) (p := a) (r := ':' :: r)).2 hab
      rw [h] at this; cases this
  | some r =>
    rw [stripPrefix_eq_some] at h
    subst h
    cases r with
    | nil => simp
    | cons c r => simp

theorem below_iff_append (a b : Str) : Spec.Below a b ↔ b = a ∨ ∃ r, b = a ++ ':' :: r := by
  unfold Spec.Below Spec.components
  constructor
  · rintro ⟨rest, h⟩
    have hb : [':'].intercalate (b.splitOn ':') = b := List.intercalate_splitOn ':'
    have ha : [':'].intercalate (a.splitOn ':') = a := List.intercalate_splitOn ':'
    cases rest with
    | nil =>
      left
      rw [← ha, ← hb, ← h, List.append_nil]
    | cons x xs =>
      right
      refine ⟨[':'].intercalate (x :: xs), ?_⟩
      rw [← h, intercalate_append (List.splitOn_ne_nil _ _) (by simp), ha] at hb
      rw [← hb]
      simp
  · rintro (rfl | ⟨r, rfl⟩)
    · exact List.prefix_refl _
    · rw [List.splitOn_append_cons_self]
      exact List.prefix_append _ _

theorem sub_iff_below (a b : Str) : isNonstrictSubaccount a b = true ↔ Spec.Below a b := by
  rw [isNonstrictSubaccount_iff, below_iff_append]

theorem sub_eq_decide (a b : Str) : isNonstrictSubaccount a b = decide (Spec.Below a b) := by
  rw [Bool.eq_iff_iff, sub_iff_below]; simp

theorem Spec.Below.refl (a : Str) : Spec.Below a a := List.prefix_refl _

theorem Spec.Below.trans {a b c : Str} (h : Spec.Below a b) (h' : Spec.Below b c) : Spec.Below a c :=
  List.IsPrefix.trans h h'

theorem Spec.components_injective {a b : Str} (h : Spec.components a = Spec.components b) : a = b := by
  have ha : [':'].intercalate (a.splitOn ':') = a := List.intercalate_splitOn ':'
  have hb : [':'].intercalate (b.splitOn ':') = b := List.intercalate_splitOn ':'
  unfold Spec.components at h
  rw [← ha, ← hb, h]

theorem Spec.Below.antisymm {a b : Str} (h : Spec.Below a b) (h' : Spec.Below b a) : a = b :=
  Spec.components_injective (List.IsPrefix.eq_of_length h (le_antisymm h.length_le h'.length_le))

end Limabean
