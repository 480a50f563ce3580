/-
C37: the columns of a rollup.
-/
import Verif.Props.C36
import Mathlib.Order.Bounds.Basic

namespace Limabean

open Spec Clj

/-- The depth of an account in the tree of accounts. -/
def Spec.depth (acc : Str) : Nat := (components acc).length - 1

namespace Clj

theorem splitOnP_length {α : Type} (p : α → Bool) (s : List α) : (s.splitOnP p).length = (s.filter p).length + 1 := by
  induction s with
  | nil => simp
  | cons a s ih =>
    rw [List.splitOnP_cons_eq_if_modifyHead]
    split
    · rename_i h
      simp [h, ih]
    · rename_i h
      simp [h, ih]

theorem accountDepth_eq (acc : Str) : accountDepth acc = depth acc := by
  unfold accountDepth depth components List.splitOn
  rw [splitOnP_length]
  simp

theorem foldl_max (l : List Nat) (a : Nat) : l.foldl max a ∈ a :: l ∧ ∀ x ∈ a :: l, x ≤ l.foldl max a := by
  induction l generalizing a with
  | nil => simp
  | cons b l ih =>
    obtain ⟨h1, h2⟩ := ih (max a b)
    rw [List.foldl_cons]
    constructor
    · rcases List.mem_cons.1 h1 with h | h
      · rw [h]
        rcases max_choice a b with e | e <;> rw [e] <;> simp
      · exact List.mem_cons_of_mem _ (List.mem_cons_of_mem _ h)
    · intro x hx
      have hm := h2 (max a b) (by simp)
      rcases List.mem_cons.1 hx with rfl | hx
      · exact (le_max_left _ _).trans hm
      · rcases List.mem_cons.1 hx with rfl | hx
        · exact (le_max_right _ _).trans hm
        · exact h2 x (by simp [hx])

theorem maxDepth_eq {inv : AMap Str (List Position)} (h : inv.WF) {cur : Str} {D : Nat}
    (hD : IsGreatest {d | ∃ b, ownUnits inv cur b ≠ 0 ∧ depth b = d} D) : maxDepth (itemUnits inv cur) = D := by
  obtain ⟨⟨b, hb, rfl⟩, h2⟩ := hD
  unfold maxDepth
  obtain ⟨h3, h4⟩ := foldl_max ((itemUnits inv cur).keys.map accountDepth) 0
  apply le_antisymm
  · rcases List.mem_cons.1 h3 with h5 | h5
    · rw [h5]; exact Nat.zero_le _
    · obtain ⟨c, hc, he⟩ := List.mem_map.1 h5
      rw [← he, accountDepth_eq]
      exact h2 ⟨c, (item_key h cur c).1 hc, rfl⟩
  · refine h4 _ (List.mem_cons_of_mem _ (List.mem_map.2 ⟨b, (item_key h cur b).2 hb, accountDepth_eq b⟩))

theorem depth_lt {a b : Str} (h : Below a b) (hne : a ≠ b) : depth a < depth b := by
  obtain ⟨r, hr⟩ := h
  have hl : (components b).length = (components a).length + r.length := by rw [← hr, List.length_append]
  have h1 : 0 < (components a).length := List.length_pos_iff.2 (components_ne_nil a)
  have h2 : 0 < r.length := by
    rw [List.length_pos_iff]
    rintro rfl
    rw [List.append_nil] at hr
    exact hne (by rw [← join_components a, ← join_components b, hr])
  unfold depth
  omega

theorem sum_key {m : AMap Str Dec} (h : m.WF) (k : Str) :
    ((m.filter fun x => x.1 = k).map fun x => x.2.val).sum = ((m.get k).map Dec.val).getD 0 := by
  induction m with
  | nil => simp
  | cons x m ih =>
    obtain ⟨a, v⟩ := x
    simp only [AMap.WF, AMap.keys, List.map_cons, List.nodup_cons] at h
    by_cases ha : a = k
    · subst ha
      have hf : m.filter (fun x => x.1 = a) = [] := by
        rw [List.filter_eq_nil_iff]
        intro y hy
        simp only [decide_eq_true_eq]
        intro e
        exact h.1 (List.mem_map.2 ⟨y, hy, e⟩)
      rw [List.filter_cons_of_pos (by simp), hf]
      simp [AMap.get]
    · rw [List.filter_cons_of_neg (by simpa using ha), ih h.2]
      simp [AMap.get, ha]

/-- A total which differs from the item has an account strictly below it. -/
theorem strict_below {inv : AMap Str (List Position)} (h : inv.WF) {cur acc : Str}
    (hs : subtotal inv cur acc ≠ ownUnits inv cur acc) : ∃ b, ownUnits inv cur b ≠ 0 ∧ Below acc b ∧ acc ≠ b := by
  by_contra hn
  push_neg at hn
  apply hs
  have e := itemUnits_sum inv cur (fun a => decide (Below acc a))
  have e2 : (itemUnits inv cur).filter (fun x => decide (Below acc x.1)) = (itemUnits inv cur).filter fun x => x.1 = acc := by
    refine List.filter_congr fun x hx => ?_
    rw [decide_eq_decide]
    constructor
    · intro hb
      exact (hn x.1 ((item_key h cur x.1).1 (List.mem_map.2 ⟨x, hx, rfl⟩)) hb).symm
    · rintro e
      rw [e]
      exact Below.refl acc
  rw [e2, sum_key (itemUnits_WF h cur)] at e
  unfold subtotal
  rw [← e]
  obtain ⟨h1, h2⟩ := itemUnits_get h cur acc
  cases hi : (itemUnits inv cur).get acc with
  | none =>
    rw [hi] at h1
    simpa using (h1.1 rfl).symm
  | some u =>
    simpa using h2 u hi

/-- The entry shown: its columns. -/
theorem entry_columns {inv : AMap Str (List Position)} (hw : ∀ acc ∈ inv.keys, WellNamed acc) {cur acc : Str} {e : RollupEntry}
    (he : (rollupBuild inv cur).get acc = some e) :
    (∀ x ∈ e.item, x.2 = maxDepth (itemUnits inv cur)) ∧ ∀ x ∈ e.total, x.2 = depth acc := by
  rw [rollup_get hw] at he
  split at he
  case isFalse => cases he
  simp only [Option.some.injEq] at he
  subst he
  constructor
  · intro x hx
    simp only [rollupEntry, Option.mem_def, Option.map_eq_some_iff] at hx
    obtain ⟨u, hu, rfl⟩ := hx
    rfl
  · intro x hx
    simp only [rollupEntry, Option.mem_def] at hx
    split at hx
    · rw [Option.map_eq_some_iff] at hx
      obtain ⟨u, hu, rfl⟩ := hx
      exact accountDepth_eq acc
    · cases hx

end Clj

/-- C37: the total of an account stands in the column of its depth, the item in the column of the deepest account which holds
the currency, and all other cells of the line are empty; totals stand strictly to the left of items. -/
theorem C37_columns (inv : AMap Str (List Position)) (cur : Str) (h : inv.WF) (hw : ∀ acc ∈ inv.keys, WellNamed acc)
    (D : Nat) (hD : IsGreatest {d | ∃ b, ownUnits inv cur b ≠ 0 ∧ depth b = d} D)
    (acc : Str) (e : RollupEntry) (he : (rollupBuild inv cur).get acc = some e) :
    (∀ i u, (entryCells e)[i]? = some (some u) ↔
      e.total.map Prod.fst = some u ∧ i = depth acc ∨ e.item.map Prod.fst = some u ∧ i = D) ∧
    (e.total ≠ none → depth acc < D) := by
  obtain ⟨h1, h2, h3, h4⟩ := C36_entry inv cur h hw acc e he
  obtain ⟨c1, c2⟩ := entry_columns hw he
  rw [maxDepth_eq h hD] at c1
  have hlt : e.total ≠ none → depth acc < D := by
    intro ht
    have hs : ∃ b, ownUnits inv cur b ≠ 0 ∧ Below acc b ∧ acc ≠ b := by
      by_cases h0 : ownUnits inv cur acc = 0
      · obtain ⟨b, hb, hab⟩ := (C36_shown inv cur h hw acc).1 ((AMap.mem_keys_iff _ _).2 ⟨e, he⟩)
        exact ⟨b, hb, hab, fun e => hb (e ▸ h0)⟩
      · refine strict_below h fun hs => ht (h3.2 ⟨h0, hs⟩)
    obtain ⟨b, hb, hab, hne⟩ := hs
    exact lt_of_lt_of_le (depth_lt hab hne) (hD.2 ⟨b, hb, rfl⟩)
  refine ⟨?_, hlt⟩
  obtain ⟨item, total⟩ := e
  simp only at *
  have rep : ∀ (n i : Nat) (u v : Dec), (List.replicate n none ++ [some v])[i]? = some (some u) ↔ v = u ∧ i = n := by
    intro n i u v
    rw [List.getElem?_append]
    split
    · rename_i hi
      simp only [List.length_replicate] at hi
      simp only [List.getElem?_replicate, hi, if_true, Option.some.injEq, reduceCtorEq, false_iff, not_and]
      omega
    · rename_i hi
      simp only [List.length_replicate] at hi ⊢
      rw [List.getElem?_singleton]
      split
      · simp only [Option.some.injEq]
        constructor
        · rintro rfl; exact ⟨rfl, by omega⟩
        · exact fun h => h.1
      · simp only [reduceCtorEq, false_iff, not_and]
        omega
  intro i u
  cases total with
  | none =>
    cases item with
    | none => simp [entryCells]
    | some x =>
      obtain ⟨v, d⟩ := x
      have := c1 (v, d) rfl
      simp only at this
      subst this
      simp only [entryCells, List.nil_append, Nat.sub_zero, rep]
      simp
  | some y =>
    obtain ⟨t, d'⟩ := y
    have hd' := c2 (t, d') rfl
    simp only at hd'
    subst hd'
    cases item with
    | none =>
      simp only [entryCells, List.append_nil, rep]
      simp
    | some x =>
      obtain ⟨v, d⟩ := x
      have := c1 (v, d) rfl
      simp only at this
      subst this
      have hl := hlt (by simp)
      simp only [entryCells]
      rw [List.getElem?_append]
      simp only [List.length_append, List.length_replicate, List.length_cons, List.length_nil, Option.map_some,
        Option.some.injEq]
      split
      · rename_i hi
        rw [rep]
        constructor
        · exact Or.inl
        · rintro (h | ⟨-, h⟩)
          · exact h
          · omega
      · rename_i hi
        rw [rep]
        constructor
        · rintro ⟨e, h⟩
          exact Or.inr ⟨e, by omega⟩
        · rintro (⟨-, h⟩ | ⟨e, h⟩)
          · omega
          · exact ⟨e, by omega⟩

example : IsGreatest {d | ∃ b, ownUnits Ex.holdings Ex.nzd b ≠ 0 ∧ depth b = d} 2 := by
  refine ⟨⟨Ex.current, by decide +kernel, by decide +kernel⟩, ?_⟩
  rintro d ⟨b, hb, rfl⟩
  have hk : b ∈ Ex.holdings.keys := by
    by_contra hk
    rw [← AMap.get_eq_none_iff] at hk
    simp [ownUnits, hk, totalUnits] at hb
  have : ∀ b ∈ Ex.holdings.keys, depth b ≤ 2 := by decide +kernel
  exact this b hk

example : (rollupBuild Ex.holdings Ex.nzd).get Ex.bank = some ⟨some (⟨500, 2⟩, 2), some (⟨-750, 2⟩, 1)⟩ ∧
    entryCells ⟨some (⟨500, 2⟩, 2), some (⟨-750, 2⟩, 1)⟩ = [none, some ⟨-750, 2⟩, some ⟨500, 2⟩] := by
  constructor <;> decide +kernel

end Limabean
