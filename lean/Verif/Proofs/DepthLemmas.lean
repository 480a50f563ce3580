/-
The nesting of messages.
-/
import Verif.Spec.Depth
import Verif.Clj.Pod
import Verif.Proofs.EncodeLemmas

namespace Limabean
namespace Clj

open Spec JsonText

variable {E : Ext} {L : BookLib} {ordm : List (Str × Json) → List (Str × Json)}

theorem nestingMembers_perm {l l' : List (Str × Json)} (h : l.Perm l') : nestingMembers l = nestingMembers l' := by
  induction h with
  | nil => rfl
  | cons x _ ih => simp only [nestingMembers, ih]
  | swap x y l => simp only [nestingMembers]; omega
  | trans _ _ ih ih' => exact ih.trans ih'

mutual
theorem nesting_toJson (ho : IsMapOrder ordm) : ∀ x : Data, nesting (toJson ordm x) = levels x
  | .nil => rfl
  | .bool _ => rfl
  | .num _ => rfl
  | .str _ => rfl
  | .kw _ => rfl
  | .date _ => rfl
  | .map l => by
    rw [toJson, nesting, levels, nestingMembers_perm (ho _), nestingMembers_entries ho l]
  | .vec l => by rw [toJson, nesting, levels, nestingElements_toJsons ho l]
  | .set l => by rw [toJson, nesting, levels, nestingElements_toJsons ho l]
theorem nestingElements_toJsons (ho : IsMapOrder ordm) : ∀ l : List Data, nestingElements (toJsons ordm l) = levelsAll l
  | [] => rfl
  | x :: l => by rw [toJsons, nestingElements, levelsAll, nesting_toJson ho x, nestingElements_toJsons ho l]
theorem nestingMembers_entries (ho : IsMapOrder ordm) : ∀ l : List (Str × Data), nestingMembers (entriesToJson ordm l) = levelsEntries l
  | [] => rfl
  | (_, x) :: l => by rw [entriesToJson, nestingMembers, levelsEntries, nesting_toJson ho x, nestingMembers_entries ho l]
end

theorem depthAll_le {n : Nat} {l : List Data} : levelsAll l ≤ n ↔ ∀ x ∈ l, levels x ≤ n := by
  induction l with
  | nil => simp [levelsAll]
  | cons x l ih => simp [levelsAll, ih]

theorem depthEntries_le {n : Nat} {l : List (Str × Data)} : levelsEntries l ≤ n ↔ ∀ x ∈ l, levels x.2 ≤ n := by
  induction l with
  | nil => simp [levelsEntries]
  | cons x l ih => obtain ⟨k, x⟩ := x; simp [levelsEntries, ih]

theorem notTooDeep_iff {xs : List Data} : NotTooDeep xs ↔ levels (.vec xs) < 127 := by
  have := depthAll_le (n := 125) (l := xs)
  rw [levels, show levelsAll xs + 1 < 127 ↔ levelsAll xs ≤ 125 by omega, this]
  exact forall₂_congr fun _ _ => by omega

theorem depth_message (m : Str) (p : Data) (id : Nat) : levels (message m p id) ≤ levels p + 1 := by
  unfold message
  split <;> simp [levels, levelsEntries]

theorem depth_message_ge (m : Str) (id : Nat) {p : Data} (hp : 1 ≤ levels p) : levels p + 1 ≤ levels (message m p id) := by
  have h : p.truthy = true := by
    cases p <;> simp_all [levels, Data.truthy]
  unfold message
  rw [if_pos h]
  simp [levels, levelsEntries]

/-- A line which is not nested too deeply. -/
theorem lineOf_message (E : Ext) (ho : IsMapOrder ordm) {m : Str} {p : Data} {id : Nat} (h : levels p < 127) :
    lineOf E (toJson ordm (message m p id)) = .json (toJson ordm (message m p id)) := by
  have := depth_message m p id
  rw [lineOf, if_pos (by rw [nesting_toJson ho]; omega)]

end Clj
end Limabean
