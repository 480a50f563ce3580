/-
C32: account filters agree with the booking engine; filters combine as sets.
-/
import Verif.Clj.Filters
import Verif.Props.C05
import Verif.Props.Examples

namespace Limabean

open Clj

/-- C32: the filter for accounts and their subaccounts selects what has an account that the booking engine counts towards the
balance of one of the given accounts; that is, an account at or below one of them in the tree of account names. -/
theorem C32_sub_acc (targets : List Str) (x : Fields) :
    (subAcc targets x = true ↔ ∃ a, x.acc = some a ∧ ∃ t ∈ targets, isNonstrictSubaccount t a = true) ∧
    (subAcc targets x = true ↔ ∃ a, x.acc = some a ∧ ∃ t ∈ targets, Spec.components t <+: Spec.components a) := by
  have h : subAcc targets x = true ↔ ∃ a, x.acc = some a ∧ ∃ t ∈ targets, Spec.Below t a := by
    unfold subAcc
    cases x.acc with
    | none => simp
    | some a =>
      simp only [List.any_eq_true, Option.some.injEq, exists_eq_left', Bool.or_eq_true, beq_iff_eq]
      refine exists_congr fun t => and_congr_right fun _ => ?_
      rw [below_iff_append]
      simp only [startsWith, List.isPrefixOf_iff_prefix]
      refine or_congr Iff.rfl ⟨?_, ?_⟩
      · rintro ⟨r, rfl⟩; exact ⟨r, by simp⟩
      · rintro ⟨r, rfl⟩; exact ⟨r, by simp⟩
  refine ⟨?_, h⟩
  rw [h]
  simp only [sub_iff_below]

/-- C32: the filters on a single field; what lacks the field is rejected. -/
theorem C32_fields (x : Fields) :
    (∀ ts, accIn ts x = true ↔ ∃ a ∈ ts, x.acc = some a) ∧
    (∀ c, curIs c x = true ↔ x.cur = some c) ∧
    (∀ m, payeeMatch m x = true ↔ ∃ p, x.payee = some p ∧ m p = true) ∧
    (∀ m, narrationMatch m x = true ↔ ∃ n, x.narration = some n ∧ m n = true) := by
  refine ⟨fun ts => ?_, fun c => ?_, fun m => ?_, fun m => ?_⟩
  · unfold accIn; cases x.acc <;> simp
  · unfold curIs; cases x.cur <;> simp
  · unfold payeeMatch; cases x.payee <;> simp
  · unfold narrationMatch; cases x.narration <;> simp

/-- C32: the combinators are conjunction, disjunction and negated disjunction, and several accounts are a union. -/
theorem C32_combinators (fs : List Filter) (x : Fields) :
    (everyF fs x = true ↔ ∀ f ∈ fs, f x = true) ∧
    (someF fs x = true ↔ ∃ f ∈ fs, f x = true) ∧
    (noneF fs x = true ↔ ∀ f ∈ fs, f x = false) ∧
    (∀ ts, subAcc ts x = someF (ts.map fun t => subAcc [t]) x) ∧
    (∀ ts, accIn ts x = someF (ts.map fun t => accIn [t]) x) := by
  refine ⟨by simp [everyF], by simp [someF], by simp [noneF], fun ts => ?_, fun ts => ?_⟩
  · unfold subAcc someF
    rw [List.any_map]
    cases h : x.acc with
    | none => simp [Function.comp_def, h]
    | some a => simp [Function.comp_def, h]
  · unfold accIn someF
    rw [List.any_map]
    cases h : x.acc with
    | none => simp [Function.comp_def, h]
    | some a => rw [Bool.eq_iff_iff]; simp [Function.comp_def, h]

/-- C32: a report selects, in order, what all filters select; more filters select from the selection. -/
theorem C32_all_of {α : Type} (fields : α → Fields) (fs gs : List Filter) (l : List α) :
    (allOf fields fs l).Sublist l ∧
    (∀ x, x ∈ allOf fields fs l ↔ x ∈ l ∧ ∀ f ∈ fs, f (fields x) = true) ∧
    allOf fields (fs ++ gs) l = allOf fields gs (allOf fields fs l) := by
  have e : ∀ (fs : List Filter) (l : List α), allOf fields fs l = l.filter fun x => fs.all fun f => f (fields x) := by
    intro fs l
    unfold allOf
    split
    · rename_i h
      rw [List.isEmpty_iff] at h
      simp [h]
    · rfl
  refine ⟨by rw [e]; exact List.filter_sublist, fun x => by rw [e]; simp, ?_⟩
  rw [e, e, e, List.filter_filter]
  refine List.filter_congr fun x _ => ?_
  simp [Bool.and_comm]

/-- C32: a negated filter selects the complement. -/
theorem C32_complement {α : Type} (fields : α → Fields) (f : Filter) (l : List α) :
    (allOf fields [f] l ++ allOf fields [noneF [f]] l).Perm l ∧
    ∀ x ∈ allOf fields [f] l, x ∉ allOf fields [noneF [f]] l := by
  constructor
  · have := List.filter_append_perm (fun x => f (fields x)) l
    simpa [allOf, noneF] using this
  · intro x h1 h2
    simp [allOf, noneF] at h1 h2
    rw [h1.2] at h2
    exact absurd h2.2 (by simp)

/-- The filter for `Assets:Bank` selects postings on `Assets:Bank:Current`, but not on `Assets:Bank2`. -/
example : (allOf (fun a => { acc := some a }) [subAcc [Ex.bank]] [Ex.bank, Ex.current, Ex.bank2, Ex.food]) =
    [Ex.bank, Ex.current] := by decide +kernel

example : (allOf (fun a => { acc := some a }) [noneF [subAcc [Ex.bank]], subAcc [str% "Assets"]]
    [Ex.bank, Ex.current, Ex.bank2, Ex.food]) = [Ex.bank2] := by decide +kernel

end Limabean
