/-
C36: the totals of a rollup.
-/
import Verif.Proofs.RollupLemmas

namespace Limabean

open Spec Clj

/-- C36: a rollup shows exactly the accounts which hold the currency, and those above them. -/
theorem C36_shown (inv : AMap Str (List Position)) (cur : Str) (h : inv.WF) (hw : ∀ acc ∈ inv.keys, WellNamed acc) (acc : Str) :
    acc ∈ (rollupBuild inv cur).keys ↔ ∃ b, ownUnits inv cur b ≠ 0 ∧ Below acc b := by
  rw [AMap.mem_keys_iff, rollup_get hw]
  have e : (∃ b ∈ (itemUnits inv cur).keys, Below acc b) ↔ ∃ b, ownUnits inv cur b ≠ 0 ∧ Below acc b :=
    exists_congr fun b => and_congr_left fun _ => item_key h cur b
  rw [← e]
  split <;> rename_i hb <;> simp [hb]

/-- C36: the item of a shown account is its own units, absent when zero; the total is the sum over the account and everything
below it, absent when it would only repeat the item. -/
theorem C36_entry (inv : AMap Str (List Position)) (cur : Str) (h : inv.WF) (hw : ∀ acc ∈ inv.keys, WellNamed acc)
    (acc : Str) (e : RollupEntry) (he : (rollupBuild inv cur).get acc = some e) :
    (e.item = none ↔ ownUnits inv cur acc = 0) ∧
    (∀ x ∈ e.item, x.1.val = ownUnits inv cur acc) ∧
    (e.total = none ↔ ownUnits inv cur acc ≠ 0 ∧ subtotal inv cur acc = ownUnits inv cur acc) ∧
    (∀ x ∈ e.total, x.1.val = subtotal inv cur acc) := by
  rw [rollup_get hw] at he
  split at he
  case isFalse => cases he
  rename_i hb
  simp only [Option.some.injEq] at he
  subst he
  obtain ⟨i1, i2⟩ := itemUnits_get h cur acc
  obtain ⟨t1, t2, t3⟩ := ancestorUnits_facts hw cur
  obtain ⟨t, ht⟩ := (AMap.mem_keys_iff _ _).1 ((t2 acc).2 hb)
  have htv := t3 acc t ht
  have hh : (ancestorUnits (itemUnits inv cur)).has acc = true := by simp [AMap.has, ht]
  refine ⟨?_, ?_, ?_, ?_⟩
  · rw [← i1]
    simp [rollupEntry]
  · intro x hx
    simp only [rollupEntry, Option.mem_def, Option.map_eq_some_iff] at hx
    obtain ⟨u, hu, rfl⟩ := hx
    exact i2 u hu
  · simp only [rollupEntry, hh, ht, Bool.true_and, Option.map_some]
    cases hi : (itemUnits inv cur).get acc with
    | none =>
      rw [hi] at i1
      simp only [Option.map_none, true_iff] at i1
      simp [differ, i1]
    | some u =>
      have h0 : ownUnits inv cur acc ≠ 0 := by
        intro h0
        have := i1.2 h0
        rw [hi] at this
        cases this
      have huv := i2 u hi
      rw [← huv] at h0
      rw [← htv, ← huv]
      simp only [differ, ite_eq_right_iff, reduceCtorEq, imp_false, Bool.not_eq_true', Bool.not_eq_false, Dec.eqv_iff]
      constructor
      · intro e
        exact ⟨h0, e.symm⟩
      · intro e
        exact e.2.symm
  · intro x hx
    simp only [rollupEntry, hh, ht, Bool.true_and, Option.map_some, Option.mem_def] at hx
    split at hx
    · simp only [Option.some.injEq] at hx
      subst hx
      exact htv
    · cases hx

/-- What is shown for an account: the total if there is one, else the item. -/
def Spec.shown (e : RollupEntry) : ℚ :=
  match e.total, e.item with
  | some t, _ => t.1.val
  | none, some i => i.1.val
  | none, none => 0

namespace Clj

theorem shown_eq {inv : AMap Str (List Position)} {cur : Str} (h : inv.WF) (hw : ∀ acc ∈ inv.keys, WellNamed acc)
    {acc : Str} {e : RollupEntry} (he : (rollupBuild inv cur).get acc = some e) : shown e = subtotal inv cur acc := by
  obtain ⟨h1, h2, h3, h4⟩ := C36_entry inv cur h hw acc e he
  unfold shown
  cases ht : e.total with
  | some t => exact h4 t ht
  | none =>
    obtain ⟨h5, h6⟩ := h3.1 ht
    cases hi : e.item with
    | some i => exact (h2 i hi).trans h6.symm
    | none => exact absurd (h1.1 hi) h5

/-- The root of an account. -/
def root (a : Str) : Str := (components a).headD []

theorem components_root (a : Str) : components (root a) = [root a] := by
  have := components_ne_nil a
  unfold root
  cases h : components a with
  | nil => exact absurd h this
  | cons c l =>
    have hc : ':' ∉ c := components_no_colon (a := a) (by rw [h]; simp)
    have := components_join (l := [c]) (by simpa using hc) (by simp)
    simpa using this

theorem components_of_no_colon {a : Str} (h : ':' ∉ a) : components a = [a] := by
  have := components_join (l := [a]) (by simpa using h) (by simp)
  simpa using this

theorem below_root {r a : Str} (hr : ':' ∉ r) : Below r a ↔ root a = r := by
  unfold Below root
  rw [components_of_no_colon hr]
  cases h : components a with
  | nil => exact absurd h (components_ne_nil a)
  | cons c l => simp [eq_comm]

theorem root_no_colon (a : Str) : ':' ∉ root a := by
  have h : root a ∈ components a := by
    unfold root
    cases h : components a with
    | nil => exact absurd h (components_ne_nil a)
    | cons c l => simp
  exact components_no_colon h

end Clj

/-- C36: the amounts shown at the top level of the tree of accounts add up to all units of the inventory in the currency. -/
theorem C36_roots (inv : AMap Str (List Position)) (cur : Str) (h : inv.WF) (hw : ∀ acc ∈ inv.keys, WellNamed acc) :
    (((rollupBuild inv cur).filter fun x => ':' ∉ x.1).map fun x => shown x.2).sum = grandTotal inv cur := by
  have e1 : ((rollupBuild inv cur).filter fun x => ':' ∉ x.1).map (fun x => shown x.2) =
      (((rollupBuild inv cur).filter fun x => ':' ∉ x.1).map Prod.fst).map fun r =>
        (((itemUnits inv cur).filter fun x => root x.1 = r).map fun x => x.2.val).sum := by
    rw [List.map_map]
    refine List.map_congr_left fun x hx => ?_
    rw [List.mem_filter, decide_eq_true_iff] at hx
    rw [shown_eq h hw (AMap.get_of_mem (rollup_WF inv cur) (k := x.1) (v := x.2) hx.1)]
    have := itemUnits_sum inv cur (fun a => decide (root a = x.1))
    simp only [Function.comp]
    rw [this]
    unfold subtotal
    congr 2
    refine List.filter_congr fun y _ => ?_
    rw [decide_eq_decide]
    exact below_root hx.2
  rw [e1, sum_classes (fun x : Str × Dec => root x.1) (fun x => x.2.val)]
  · have := itemUnits_sum inv cur (fun _ => true)
    simpa [grandTotal] using this
  · exact List.Nodup.sublist (List.filter_sublist.map _) (rollup_WF inv cur)
  · rintro ⟨a, u⟩ hx
    have hk : root a ∈ (rollupBuild inv cur).keys := by
      rw [C36_shown inv cur h hw]
      exact ⟨a, (item_key h cur a).1 (List.mem_map.2 ⟨_, hx, rfl⟩), (below_root (root_no_colon a)).2 rfl⟩
    obtain ⟨e, he⟩ := (AMap.mem_keys_iff _ _).1 hk
    rw [List.mem_map]
    exact ⟨(root a, e), List.mem_filter.2 ⟨AMap.mem_of_get he, by simpa using root_no_colon a⟩, rfl⟩

/-- An inventory: an account with units of its own and below it, and accounts whose units cancel. -/
def Ex.holdings : AMap Str (List Position) :=
  [(Ex.bank, [⟨⟨500, 2⟩, Ex.nzd, none⟩, ⟨⟨7, 0⟩, Ex.usd, none⟩]), (Ex.current, [⟨⟨-1250, 2⟩, Ex.nzd, none⟩]),
   (Ex.food, [⟨⟨1250, 2⟩, Ex.nzd, none⟩])]

example : Ex.holdings.WF ∧ (∀ acc ∈ Ex.holdings.keys, WellNamed acc) ∧
    rollupBuild Ex.holdings Ex.nzd =
      [(Ex.bank, ⟨some (⟨500, 2⟩, 2), some (⟨-750, 2⟩, 1)⟩), (Ex.current, ⟨some (⟨-1250, 2⟩, 2), none⟩),
       (Ex.food, ⟨some (⟨1250, 2⟩, 2), none⟩), (str% "Assets", ⟨none, some (⟨-750, 2⟩, 0)⟩),
       (str% "Expenses", ⟨none, some (⟨1250, 2⟩, 0)⟩)] ∧
    grandTotal Ex.holdings Ex.nzd = 5 := by
  refine ⟨by unfold AMap.WF; decide +kernel, by decide +kernel, by decide +kernel, by decide +kernel⟩

end Limabean
