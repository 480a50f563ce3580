/-
C51: rendering a number keeps its text and anchors it before the decimal point. Nothing is lost in display.
-/
import Verif.Clj.Cell

namespace Limabean

open Clj

mutual
/-- All texts in a cell, in order. -/
def Spec.texts : Cell → List Str
  | .empty => []
  | .stack cs => Spec.textsList cs
  | .row cs _ => Spec.textsList cs
  | .aligned s => [s]
  | .anchored s _ => [s]
def Spec.textsList : List Cell → List Str
  | [] => []
  | c :: cs => Spec.texts c ++ Spec.textsList cs
end

mutual
/-- The texts of everything in a value; a value which is not supported is a question mark. -/
def Spec.leaves : Val → List Str
  | .nil => []
  | .text s => [s]
  | .num s => [s]
  | .map es => Spec.leavesEntries es
  | .vector xs => Spec.leavesList xs
  | .seq xs => Spec.leavesList xs
  | .set xs => Spec.leavesList xs
  | .other => [str% "?"]
def Spec.leavesList : List Val → List Str
  | [] => []
  | x :: xs => Spec.leaves x ++ Spec.leavesList xs
def Spec.leavesEntries : List (Val × Val) → List Str
  | [] => []
  | (k, v) :: es => Spec.leaves k ++ Spec.leaves v ++ Spec.leavesEntries es
end

open Spec

namespace Clj

theorem indexOf_some {c : Char} {s : Str} {n : Nat} (h : indexOf c s = some n) :
    ∃ w r, s = w ++ c :: r ∧ c ∉ w ∧ w.length = n := by
  induction s generalizing n with
  | nil => simp [indexOf] at h
  | cons x s ih =>
    unfold indexOf at h
    by_cases hx : x = c
    · rw [if_pos hx] at h
      refine ⟨[], s, by rw [hx]; rfl, by simp, ?_⟩
      simpa using h
    · rw [if_neg hx, Option.map_eq_some_iff] at h
      obtain ⟨k, hk, rfl⟩ := h
      obtain ⟨w, r, rfl, hw, rfl⟩ := ih hk
      refine ⟨x :: w, r, rfl, ?_, rfl⟩
      simp [hw, Ne.symm hx]

theorem indexOf_none {c : Char} {s : Str} : indexOf c s = none ↔ c ∉ s := by
  induction s with
  | nil => simp [indexOf]
  | cons x s ih =>
    unfold indexOf
    by_cases hx : x = c
    · simp [hx]
    · rw [if_neg hx, Option.map_eq_none_iff, ih]
      simp [Ne.symm hx]

theorem textsList_eq (cs : List Cell) : textsList cs = cs.flatMap texts := by
  induction cs with
  | nil => simp [textsList]
  | cons c cs ih => rw [textsList, ih, List.flatMap_cons]

theorem texts_stack (cs : List Cell) : texts (.stack cs) = cs.flatMap texts := by rw [texts, textsList_eq]

theorem texts_row (cs : List Cell) (g : Str) : texts (.row cs g) = cs.flatMap texts := by rw [texts, textsList_eq]

theorem texts_vector (cs : List Cell) : texts (vectorCell cs) = cs.flatMap texts := by
  unfold vectorCell
  split
  · simp [texts]
  · simp
  · rw [texts_stack]

end Clj

/-- C51: the text is kept; it is anchored at the last character of the part `w` before the decimal point, or if there is none,
before the slash, or else at the last character of all. -/
theorem C51_anchor (s : Str) : ∃ w r, s = w ++ r ∧ numberCell s = .anchored s (w.length - 1) ∧
    (('.' ∉ w ∧ r.head? = some '.') ∨ ('.' ∉ s ∧ '/' ∉ w ∧ r.head? = some '/') ∨ ('.' ∉ s ∧ '/' ∉ s ∧ r = [])) := by
  unfold numberCell
  cases h : indexOf '.' s with
  | some n =>
    obtain ⟨w, r, hs, hw, rfl⟩ := indexOf_some h
    exact ⟨w, '.' :: r, hs, rfl, Or.inl ⟨hw, rfl⟩⟩
  | none =>
    have h1 := indexOf_none.1 h
    cases h' : indexOf '/' s with
    | some n =>
      obtain ⟨w, r, hs, hw, rfl⟩ := indexOf_some h'
      exact ⟨w, '/' :: r, hs, rfl, Or.inr (Or.inl ⟨h1, hw, rfl⟩)⟩
    | none => exact ⟨s, [], by simp, rfl, Or.inr (Or.inr ⟨h1, indexOf_none.1 h', rfl⟩)⟩

/-- C51: the anchor is within the text, if the text is not empty and does not start with a point or slash. -/
theorem C51_within (s : Str) (hs : s ≠ []) (h1 : s.head? ≠ some '.') (h2 : s.head? ≠ some '/') :
    ∃ i : Nat, numberCell s = .anchored s i ∧ i < s.length := by
  obtain ⟨w, r, rfl, he, h⟩ := C51_anchor s
  have hw : w ≠ [] := by
    rintro rfl
    rcases h with h | h | h
    · exact h1 h.2
    · exact h2 h.2.2
    · simp [h.2.2] at hs
  have hl : 0 < w.length := List.length_pos_of_ne_nil hw
  refine ⟨w.length - 1, ?_, ?_⟩
  · rw [he]
    congr 1
    omega
  · rw [List.length_append]
    omega

mutual
/-- C51: nothing is lost or added in display: the texts in the cell are those in the value, up to the order in which maps and sets are
shown. -/
theorem C51_complete (srt : TrySort) (v : Val) : (texts (cell srt v)).Perm (leaves v) :=
  match v with
  | .nil => by simp [cell, texts, leaves]
  | .text s => by simp [cell, texts, leaves]
  | .num s => by simp [cell, numberCell, texts, leaves]
  | .other => by simp [cell, texts, leaves]
  | .vector xs => by
    rw [cell, texts_vector, leaves]
    exact C51_complete_list srt xs
  | .seq xs => by
    rw [cell, texts_vector, leaves]
    exact C51_complete_list srt xs
  | .set xs => by
    rw [cell, texts_vector, leaves]
    exact ((srt.items_perm _).flatMap_right _).trans (C51_complete_list srt xs)
  | .map es => by
    rw [cell, texts_stack, leaves, List.flatMap_map]
    refine ((srt.keys_perm _).flatMap_right _).trans ?_
    exact C51_complete_entries srt es
theorem C51_complete_list (srt : TrySort) (xs : List Val) : ((cells srt xs).flatMap texts).Perm (leavesList xs) :=
  match xs with
  | [] => by simp [cells, leavesList]
  | x :: xs => by
    rw [cells, leavesList, List.flatMap_cons]
    exact (C51_complete srt x).append (C51_complete_list srt xs)
theorem C51_complete_entries (srt : TrySort) (es : List (Val × Val)) :
    ((mapEntryCells srt es).flatMap fun e => texts (.row [e.1, e.2] (str% "  "))).Perm (leavesEntries es) :=
  match es with
  | [] => by simp [mapEntryCells, leavesEntries]
  | (k, v) :: es => by
    rw [mapEntryCells, leavesEntries, List.flatMap_cons, texts_row]
    refine List.Perm.append ?_ (C51_complete_entries srt es)
    simp only [List.flatMap_cons, List.flatMap_nil, List.append_nil]
    exact (C51_complete srt k).append (C51_complete srt v)
end

/-- Sorting which leaves everything as it is. -/
def Clj.TrySort.unsorted : TrySort := ⟨id, id, fun _ => .refl _, fun _ => .refl _⟩

example : numberCell (str% "-12.50") = .anchored (str% "-12.50") 2 ∧ numberCell (str% "1/3") = .anchored (str% "1/3") 0 ∧
    numberCell (str% "200") = .anchored (str% "200") 2 := ⟨rfl, rfl, rfl⟩

example : leaves (.map [(.text (str% "a"), .vector [.num (str% "1.5"), .nil, .other])]) = [str% "a", str% "1.5", str% "?"] := by
  decide +kernel

end Limabean
