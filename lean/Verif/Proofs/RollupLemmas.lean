/-
Lemmas on rollups: ancestors of accounts, sums by key.
-/
import Verif.Props.C34
import Verif.Spec.Rollup

namespace Limabean

open Spec

theorem splitOnP_sep {α : Type} (p : α → Bool) (s : List α) : ∀ c ∈ s.splitOnP p, ∀ x ∈ c, p x = false := by
  induction s with
  | nil => simp
  | cons a s ih =>
    intro c hc x hx
    rw [List.splitOnP_cons_eq_if_modifyHead] at hc
    split at hc
    · rcases List.mem_cons.1 hc with rfl | hc
      · simp at hx
      · exact ih c hc x hx
    · rename_i ha
      cases hs : s.splitOnP p with
      | nil => exact absurd hs (List.splitOnP_ne_nil p s)
      | cons h t =>
        rw [hs] at hc ih
        simp only [List.modifyHead_cons, List.mem_cons] at hc
        rcases hc with rfl | hc
        · rcases List.mem_cons.1 hx with rfl | hx
          · simpa using ha
          · exact ih h (by simp) x hx
        · exact ih c (by simp [hc]) x hx

theorem components_no_colon {a c : Str} (h : c ∈ components a) : ':' ∉ c := by
  intro hx
  have := splitOnP_sep (· == ':') a c (by simpa [components, List.splitOn] using h) ':' hx
  simp at this

theorem components_ne_nil (a : Str) : components a ≠ [] := List.splitOn_ne_nil _ _

theorem join_components (a : Str) : [':'].intercalate (components a) = a := List.intercalate_splitOn ':'

theorem components_join {l : List Str} (h : ∀ c ∈ l, ':' ∉ c) (hl : l ≠ []) : components ([':'].intercalate l) = l :=
  List.splitOn_intercalate ':' h hl

namespace Clj

/-- The ancestors of an account and the account, from its components. -/
theorem ancestors_fold (cs : List Str) :
    (cs.foldl ancestorStep ([], [])).2 = [':'].intercalate cs ∧
    ((cs.foldl ancestorStep ([], [])).1 = [] ↔ cs = []) ∧
    (∀ a, a ∈ (cs.foldl ancestorStep ([], [])).1 ↔ ∃ p, p ≠ [] ∧ p <+: cs ∧ a = [':'].intercalate p) ∧
    (cs.foldl ancestorStep ([], [])).1.Pairwise (fun a b => a.length < b.length) := by
  induction cs using List.reverseRecOn with
  | nil =>
    refine ⟨rfl, by simp, fun a => ?_, by simp⟩
    simp only [List.foldl_nil, List.not_mem_nil, List.prefix_nil, false_iff]
    rintro ⟨p, hp, rfl, -⟩
    exact hp rfl
  | append_singleton cs c ih =>
    obtain ⟨h1, h2, h3, h4⟩ := ih
    rw [List.foldl_append, List.foldl_cons, List.foldl_nil]
    unfold ancestorStep
    rw [show List.foldl (fun x c => if x.1.isEmpty then ([c], c) else (x.1 ++ [x.2 ++ str% ":" ++ c], x.2 ++ str% ":" ++ c))
      ([], []) cs = cs.foldl ancestorStep ([], []) from rfl]
    by_cases hc : cs = []
    · subst hc
      simp only [List.foldl_nil, List.isEmpty_nil, if_true, List.nil_append]
      refine ⟨by simp, by simp, fun a => ?_, by simp⟩
      constructor
      · intro ha
        exact ⟨[c], by simp, by simp, by simpa using ha⟩
      · rintro ⟨p, hp, hpc, rfl⟩
        have : p = [c] := by
          rcases List.prefix_concat_iff.1 (show p <+: [] ++ [c] from hpc) with h | h
          · exact h
          · exact absurd (List.prefix_nil.1 h) hp
        subst this
        simp
    · have hne : (cs.foldl ancestorStep ([], [])).1 ≠ [] := fun h => hc (h2.1 h)
      rw [if_neg (by simpa using hne)]
      have hj : [':'].intercalate (cs ++ [c]) = (cs.foldl ancestorStep ([], [])).2 ++ str% ":" ++ c := by
        rw [intercalate_append hc (by simp), h1]
        simp
      refine ⟨hj.symm, by simp, fun a => ?_, ?_⟩
      · simp only [List.mem_append, List.mem_singleton, h3]
        constructor
        · rintro (⟨p, hp, hpc, rfl⟩ | rfl)
          · exact ⟨p, hp, hpc.trans (List.prefix_append _ _), rfl⟩
          · exact ⟨cs ++ [c], by simp, List.prefix_refl _, hj.symm⟩
        · rintro ⟨p, hp, hpc, rfl⟩
          rcases List.prefix_concat_iff.1 hpc with h | h
          · subst h; exact Or.inr hj
          · exact Or.inl ⟨p, hp, h, rfl⟩
      · rw [List.pairwise_append]
        refine ⟨h4, by simp, fun a ha b hb => ?_⟩
        simp only [List.mem_singleton] at hb
        subst hb
        obtain ⟨p, hp, ⟨q, hq⟩, rfl⟩ := (h3 a).1 ha
        rw [h1, ← hq]
        have : ([':'].intercalate p).length ≤ ([':'].intercalate (p ++ q)).length := by
          cases q with
          | nil => simp
          | cons x q => rw [intercalate_append hp (by simp)]; simp
        simp only [List.length_append, List.length_cons, List.length_nil]
        omega

theorem splitColon_eq {a : Str} (h : WellNamed a) : splitColon a = components a := by
  unfold splitColon
  simp only
  split
  · rfl
  · change ((components a).reverse.dropWhile List.isEmpty).reverse = components a
    cases hr : (components a).reverse with
    | nil => simpa using hr.symm
    | cons c l =>
      have : c ∈ components a := by rw [← List.mem_reverse, hr]; simp
      rw [List.dropWhile_cons_of_neg (by simpa using h c this), ← hr, List.reverse_reverse]

theorem mem_ancestors {a b : Str} (h : WellNamed b) : a ∈ accountAndAncestors b ↔ Below a b := by
  unfold accountAndAncestors
  rw [splitColon_eq h, (ancestors_fold (components b)).2.2.1]
  unfold Below
  constructor
  · rintro ⟨p, hp, hpb, rfl⟩
    rw [components_join (fun c hc => components_no_colon (hpb.subset hc)) hp]
    exact hpb
  · intro hab
    exact ⟨components a, components_ne_nil a, hab, (join_components a).symm⟩

theorem nodup_ancestors {b : Str} (h : WellNamed b) : (accountAndAncestors b).Nodup := by
  unfold accountAndAncestors
  rw [splitColon_eq h]
  exact (ancestors_fold (components b)).2.2.2.imp fun {a b} hab e => by
    subst e
    exact lt_irrefl _ hab

/-- Adding up by key. -/
theorem accFold {g : Dec → Dec → Dec} (hg : ∀ a b, (g a b).val = a.val + b.val) (l : List (Str × Dec)) (m : AMap Str Dec)
    (hm : m.WF) :
    (l.foldl (fun r x => r.set x.1 (g ((r.get x.1).getD Dec.zero) x.2)) m).WF ∧
    (∀ k, k ∈ (l.foldl (fun r x => r.set x.1 (g ((r.get x.1).getD Dec.zero) x.2)) m).keys ↔
      k ∈ m.keys ∨ ∃ x ∈ l, x.1 = k) ∧
    ∀ k, (((l.foldl (fun r x => r.set x.1 (g ((r.get x.1).getD Dec.zero) x.2)) m).get k).getD Dec.zero).val =
      ((m.get k).getD Dec.zero).val + ((l.filter fun x => x.1 = k).map fun x => x.2.val).sum := by
  induction l generalizing m with
  | nil => exact ⟨hm, by simp, by simp⟩
  | cons x l ih =>
    obtain ⟨h1, h2, h3⟩ := ih (m.set x.1 (g ((m.get x.1).getD Dec.zero) x.2)) (AMap.WF_set hm _ _)
    refine ⟨h1, fun k => ?_, fun k => ?_⟩
    · rw [List.foldl_cons, h2, AMap.keys_set]
      split
      · rename_i hx
        constructor
        · rintro (h | ⟨y, hy, rfl⟩)
          · exact Or.inl h
          · exact Or.inr ⟨y, by simp [hy], rfl⟩
        · rintro (h | ⟨y, hy, rfl⟩)
          · exact Or.inl h
          · rcases List.mem_cons.1 hy with rfl | hy
            · exact Or.inl hx
            · exact Or.inr ⟨y, hy, rfl⟩
      · rw [List.mem_append, List.mem_singleton]
        constructor
        · rintro ((h | rfl) | ⟨y, hy, rfl⟩)
          · exact Or.inl h
          · exact Or.inr ⟨x, by simp, rfl⟩
          · exact Or.inr ⟨y, by simp [hy], rfl⟩
        · rintro (h | ⟨y, hy, rfl⟩)
          · exact Or.inl (Or.inl h)
          · rcases List.mem_cons.1 hy with rfl | hy
            · exact Or.inl (Or.inr rfl)
            · exact Or.inr ⟨y, hy, rfl⟩
    · rw [List.foldl_cons, h3, AMap.get_set]
      by_cases hk : x.1 = k
      · subst hk
        rw [if_pos rfl, Option.getD_some, hg, List.filter_cons_of_pos (by simp)]
        simp [add_assoc]
      · rw [if_neg hk, List.filter_cons_of_neg (by simpa using hk)]

theorem positionsUnitsOf_val (ps : List Position) (cur : Str) :
    (positionsUnitsOf ps cur).val = totalUnits Position.units ps (fun p => p.cur = cur) := by
  have h := (accFold (g := Dec.add) Dec.val_add (ps.map fun p => (p.cur, p.units)) [] AMap.WF_nil).2.2 cur
  rw [List.foldl_map] at h
  unfold positionsUnitsOf unitsByCurrency
  rw [h]
  simp only [AMap.get_nil, Option.getD_none, Dec.val_zero, zero_add, totalUnits]
  rw [List.filter_map, List.map_map]
  rfl

theorem itemUnits_WF {inv : AMap Str (List Position)} (h : inv.WF) (cur : Str) : (itemUnits inv cur).WF := by
  have hs : ((itemUnits inv cur).map Prod.fst).Sublist (inv.map Prod.fst) := by
    unfold itemUnits
    clear h
    induction inv with
    | nil => simp
    | cons x inv ih =>
      rw [List.filterMap_cons]
      simp only
      by_cases hz : (positionsUnitsOf x.2 cur).isZero = true
      · rw [if_pos hz]
        exact (ih).cons _
      · rw [if_neg hz]
        exact (ih).cons_cons _
  exact List.Nodup.sublist hs h

theorem itemUnits_mem {inv : AMap Str (List Position)} {cur acc : Str} {u : Dec} :
    (acc, u) ∈ itemUnits inv cur ↔ ∃ ps, (acc, ps) ∈ inv ∧ (positionsUnitsOf ps cur).isZero = false ∧ u = positionsUnitsOf ps cur := by
  unfold itemUnits
  rw [List.mem_filterMap]
  constructor
  · rintro ⟨⟨a, ps⟩, hx, h⟩
    simp only at h
    split at h
    · cases h
    · rename_i hz
      simp only [Option.some.injEq, Prod.mk.injEq] at h
      obtain ⟨rfl, rfl⟩ := h
      exact ⟨ps, hx, Bool.eq_false_iff.2 hz, rfl⟩
  · rintro ⟨ps, hx, hz, rfl⟩
    exact ⟨(acc, ps), hx, by simp [hz]⟩

theorem itemUnits_get {inv : AMap Str (List Position)} (h : inv.WF) (cur acc : Str) :
    (((itemUnits inv cur).get acc).map Dec.val = none ↔ ownUnits inv cur acc = 0) ∧
    ∀ u, (itemUnits inv cur).get acc = some u → u.val = ownUnits inv cur acc := by
  have key : ∀ ps, inv.get acc = some ps → ownUnits inv cur acc = (positionsUnitsOf ps cur).val := by
    intro ps hp
    rw [positionsUnitsOf_val]
    simp [ownUnits, hp]
  constructor
  · rw [Option.map_eq_none_iff, AMap.get_eq_none_iff, AMap.mem_keys_iff]
    constructor
    · intro hn
      cases hp : inv.get acc with
      | none => simp [ownUnits, hp, totalUnits]
      | some ps =>
        rw [key ps hp]
        by_contra hz
        refine hn ⟨positionsUnitsOf ps cur, AMap.get_of_mem (itemUnits_WF h cur) (itemUnits_mem.2
          ⟨ps, AMap.mem_of_get hp, ?_, rfl⟩)⟩
        rw [Bool.eq_false_iff, Ne, Dec.isZero_iff]
        exact hz
    · rintro h0 ⟨u, hu⟩
      obtain ⟨ps, hps, hz, rfl⟩ := itemUnits_mem.1 (AMap.mem_of_get hu)
      rw [key ps (AMap.get_of_mem h hps)] at h0
      rw [Bool.eq_false_iff, Ne, Dec.isZero_iff] at hz
      exact hz h0
  · intro u hu
    obtain ⟨ps, hps, hz, rfl⟩ := itemUnits_mem.1 (AMap.mem_of_get hu)
    rw [key ps (AMap.get_of_mem h hps)]

theorem itemUnits_sum (inv : AMap Str (List Position)) (cur : Str) (P : Str → Bool) :
    (((itemUnits inv cur).filter fun x => P x.1).map fun x => x.2.val).sum =
    ((inv.filter fun x => P x.1).map fun x => totalUnits Position.units x.2 (fun p => p.cur = cur)).sum := by
  unfold itemUnits
  induction inv with
  | nil => simp
  | cons x inv ih =>
    rw [List.filterMap_cons]
    simp only
    by_cases hz : (positionsUnitsOf x.2 cur).isZero = true
    · rw [if_pos hz]
      simp only
      rw [ih]
      rw [Dec.isZero_iff, positionsUnitsOf_val] at hz
      cases hp : P x.1 <;> simp [hp, hz]
    · rw [if_neg hz]
      simp only
      cases hp : P x.1
      · simp only [List.filter_cons, hp, Bool.false_eq_true, if_false]
        exact ih
      · simp only [List.filter_cons, hp, if_true, List.map_cons, List.sum_cons, positionsUnitsOf_val]
        rw [ih]

theorem flat_sum (items : List (Str × Dec)) (h : ∀ x ∈ items, WellNamed x.1) (k : Str) :
    (((items.flatMap fun x => (accountAndAncestors x.1).map fun a => (a, x.2)).filter fun x => x.1 = k).map
      fun x => x.2.val).sum = ((items.filter fun x => Below k x.1).map fun x => x.2.val).sum := by
  induction items with
  | nil => simp
  | cons x items ih =>
    rw [List.flatMap_cons, List.filter_append, List.map_append, List.sum_append, ih fun y hy => h y (by simp [hy])]
    have hw := h x (by simp)
    have e : (((accountAndAncestors x.1).map fun a => (a, x.2)).filter fun y => y.1 = k).map (fun y => y.2.val) =
        ((accountAndAncestors x.1).filter fun a => a = k).map fun _ => x.2.val := by
      rw [List.filter_map, List.map_map]
      rfl
    rw [e]
    by_cases hk : Below k x.1
    · have hm : k ∈ accountAndAncestors x.1 := (mem_ancestors hw).2 hk
      have hf : (accountAndAncestors x.1).filter (fun a => a = k) = [k] := by
        have h2 : (accountAndAncestors x.1).filter (fun a => decide (a = k)) = (accountAndAncestors x.1).filter (· == k) :=
          List.filter_congr fun a _ => by rw [Bool.eq_iff_iff, decide_eq_true_iff, beq_iff_eq]
        rw [h2, List.filter_beq, (List.count_eq_one_of_mem (nodup_ancestors hw) hm)]
        rfl
      rw [hf, List.filter_cons_of_pos (by simpa using hk)]
      simp
    · have hm : k ∉ accountAndAncestors x.1 := fun h => hk ((mem_ancestors hw).1 h)
      have hf : (accountAndAncestors x.1).filter (fun a => a = k) = [] := by
        rw [List.filter_eq_nil_iff]
        intro a ha
        simp only [decide_eq_true_eq]
        rintro rfl
        exact hm ha
      rw [hf, List.filter_cons_of_neg (by simpa using hk)]
      simp

theorem ancestorUnits_facts {inv : AMap Str (List Position)} (hw : ∀ acc ∈ inv.keys, WellNamed acc) (cur : Str) :
    (ancestorUnits (itemUnits inv cur)).WF ∧
    (∀ k, k ∈ (ancestorUnits (itemUnits inv cur)).keys ↔ ∃ b ∈ (itemUnits inv cur).keys, Below k b) ∧
    ∀ k u, (ancestorUnits (itemUnits inv cur)).get k = some u → u.val = subtotal inv cur k := by
  have hwi : ∀ x ∈ itemUnits inv cur, WellNamed x.1 := by
    rintro ⟨a, u⟩ hx
    obtain ⟨ps, hps, -⟩ := itemUnits_mem.1 hx
    exact hw a (List.mem_map.2 ⟨_, hps, rfl⟩)
  obtain ⟨h1, h2, h3⟩ := accFold (g := fun a b => b.add a) (fun a b => by rw [Dec.val_add, add_comm])
    ((itemUnits inv cur).flatMap fun x => (accountAndAncestors x.1).map fun a => (a, x.2)) [] AMap.WF_nil
  refine ⟨h1, fun k => ?_, fun k u hu => ?_⟩
  · unfold ancestorUnits
    rw [h2]
    simp only [AMap.keys, List.map_nil, List.not_mem_nil, false_or, List.mem_flatMap, List.mem_map, Prod.exists]
    constructor
    · rintro ⟨a, u, ⟨b, u', hb, c, hc, he⟩, rfl⟩
      simp only [Prod.mk.injEq] at he
      obtain ⟨rfl, rfl⟩ := he
      exact ⟨b, ⟨b, _, hb, rfl⟩, (mem_ancestors (hwi _ hb)).1 hc⟩
    · rintro ⟨b, ⟨b', u, hb, rfl⟩, hk⟩
      exact ⟨k, u, ⟨b', u, hb, k, (mem_ancestors (hwi _ hb)).2 hk, rfl⟩, rfl⟩
  · have := h3 k
    unfold ancestorUnits at hu
    rw [hu, flat_sum _ hwi] at this
    simp only [Option.getD_some, AMap.get_nil, Option.getD_none, Dec.val_zero, zero_add] at this
    rw [this]
    exact itemUnits_sum inv cur (fun a => decide (Below k a))

theorem setFold {V : Type} (f : Str → V) (l : List Str) (m : AMap Str V) (hm : m.WF) :
    (l.foldl (fun r a => r.set a (f a)) m).WF ∧
    ∀ k, (l.foldl (fun r a => r.set a (f a)) m).get k = if k ∈ l then some (f k) else m.get k := by
  induction l generalizing m with
  | nil => exact ⟨hm, by simp⟩
  | cons a l ih =>
    obtain ⟨h1, h2⟩ := ih (m.set a (f a)) (AMap.WF_set hm _ _)
    refine ⟨h1, fun k => ?_⟩
    rw [List.foldl_cons, h2, AMap.get_set]
    by_cases hk : k ∈ l
    · simp [hk]
    · by_cases ha : a = k
      · subst ha; simp
      · simp [hk, ha, Ne.symm ha]

theorem Below.refl (a : Str) : Below a a := List.prefix_refl _

/-- What a rollup contains. -/
theorem rollup_get {inv : AMap Str (List Position)} (hw : ∀ acc ∈ inv.keys, WellNamed acc) (cur acc : Str) :
    (rollupBuild inv cur).get acc = if ∃ b ∈ (itemUnits inv cur).keys, Below acc b then
      some (rollupEntry (itemUnits inv cur) (ancestorUnits (itemUnits inv cur)) acc) else none := by
  unfold rollupBuild
  simp only
  rw [(setFold _ _ _ AMap.WF_nil).2]
  refine if_congr ?_ rfl rfl
  rw [List.mem_append, (ancestorUnits_facts hw cur).2.1]
  constructor
  · rintro (h | h)
    · exact ⟨acc, h, Below.refl acc⟩
    · exact h
  · exact Or.inr

theorem rollup_WF (inv : AMap Str (List Position)) (cur : Str) : (rollupBuild inv cur).WF :=
  (setFold _ _ _ AMap.WF_nil).1

theorem item_key {inv : AMap Str (List Position)} (h : inv.WF) (cur b : Str) :
    b ∈ (itemUnits inv cur).keys ↔ ownUnits inv cur b ≠ 0 := by
  have := (itemUnits_get h cur b).1
  rw [Option.map_eq_none_iff, AMap.get_eq_none_iff] at this
  rw [Ne, ← this, not_not]

end Clj
end Limabean
