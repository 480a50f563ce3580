/-
C55: a rollup is for the primary currency.

False for inventories without positions, for which there is no rollup: `max-key` throws (`C55_false`).
-/
import Verif.Props.C35
import Verif.Props.C36
import Verif.Props.C38

namespace Limabean

open Spec Clj

/-- The number of accounts of an inventory which hold a currency. -/
def Spec.holders (inv : AMap Str (List Position)) (cur : Str) : Nat :=
  (inv.filter fun x => x.2.any fun p => p.cur = cur).length

namespace Clj

theorem mem_positionsCurrencies {ps : List Position} {cur : Str} : cur ∈ positionsCurrencies ps ↔ ∃ p ∈ ps, p.cur = cur := by
  have h := (accFold (g := Dec.add) Dec.val_add (ps.map fun p => (p.cur, p.units)) [] AMap.WF_nil).2.1
  rw [List.foldl_map] at h
  unfold positionsCurrencies unitsByCurrency
  rw [(sortBy_perm _).mem_iff, h]
  simp [AMap.keys]

theorem positionsCurrencies_nodup (ps : List Position) : (positionsCurrencies ps).Nodup := by
  have h := (accFold (g := Dec.add) Dec.val_add (ps.map fun p => (p.cur, p.units)) [] AMap.WF_nil).1
  rw [List.foldl_map] at h
  unfold positionsCurrencies unitsByCurrency
  rw [(sortBy_perm _).nodup_iff]
  exact h

theorem curFreq_eq (inv : AMap Str (List Position)) : curFreq inv =
    (inv.flatMap fun x => positionsCurrencies x.2).foldl (fun (m : AMap Str Nat) c => m.set c ((m.get c).getD 0 + 1)) [] := by
  rw [curFreq, List.foldl_flatMap]

theorem count_currencies (inv : AMap Str (List Position)) (cur : Str) :
    ((inv.flatMap fun x => positionsCurrencies x.2).filter fun x => x = cur).length = holders inv cur := by
  unfold holders
  induction inv with
  | nil => rfl
  | cons x inv ih =>
    rw [List.flatMap_cons, List.filter_append, List.length_append, ih, List.filter_cons]
    have hc : ((positionsCurrencies x.2).filter fun y => y = cur).length = if ∃ p ∈ x.2, p.cur = cur then 1 else 0 := by
      rw [← List.countP_eq_length_filter]
      have h1 := List.Nodup.count (a := cur) (positionsCurrencies_nodup x.2)
      have h2 : List.countP (fun y => decide (y = cur)) (positionsCurrencies x.2) = List.count cur (positionsCurrencies x.2) := by
        rw [List.count]
        congr 1
        funext y
        rw [Bool.eq_iff_iff]
        simp
      rw [h2, h1]
      exact if_congr mem_positionsCurrencies rfl rfl
    rw [hc]
    by_cases h : ∃ p ∈ x.2, p.cur = cur
    · rw [if_pos h, if_pos (by simpa using h), List.length_cons, Nat.add_comm]
    · rw [if_neg h, if_neg (by simpa using h), Nat.zero_add]

theorem curFreq_WF (inv : AMap Str (List Position)) : (curFreq inv).WF := by
  rw [curFreq_eq]
  exact (countFold _ [] AMap.WF_nil).1

theorem mem_curFreq {inv : AMap Str (List Position)} {cur : Str} {n : Nat} :
    (cur, n) ∈ curFreq inv ↔ n = holders inv cur ∧ holders inv cur ≠ 0 := by
  have h := (countFold (inv.flatMap fun x => positionsCurrencies x.2) [] AMap.WF_nil).2 cur
  rw [← curFreq_eq, count_currencies] at h
  have hm : cur ∈ (inv.flatMap fun x => positionsCurrencies x.2) ↔ holders inv cur ≠ 0 := by
    rw [← count_currencies, Ne, List.length_eq_zero_iff, List.filter_eq_nil_iff]
    simp
  constructor
  · intro hx
    have := AMap.get_of_mem (curFreq_WF inv) hx
    rw [this] at h
    split at h
    · rename_i hc
      simp only [AMap.get_nil, Option.getD_none, zero_add, Option.some.injEq] at h
      exact ⟨h, hm.1 hc⟩
    · cases h
  · rintro ⟨rfl, h0⟩
    rw [if_pos (hm.2 h0)] at h
    simp only [AMap.get_nil, Option.getD_none, zero_add] at h
    exact AMap.mem_of_get h

theorem maxKey_foldl (l : List (Str × Nat)) (x : Str × Nat) :
    l.foldl (fun v w => if v.2 > w.2 then v else w) x ∈ x :: l ∧
    ∀ y ∈ x :: l, y.2 ≤ (l.foldl (fun v w => if v.2 > w.2 then v else w) x).2 := by
  induction l generalizing x with
  | nil => simp
  | cons a l ih =>
    rw [List.foldl_cons]
    by_cases h : x.2 > a.2
    · rw [if_pos h]
      obtain ⟨h1, h2⟩ := ih x
      refine ⟨?_, ?_⟩
      · rcases List.mem_cons.1 h1 with h1 | h1
        · rw [h1]; simp
        · simp [h1]
      · intro y hy
        simp only [List.mem_cons] at hy
        rcases hy with rfl | rfl | hy
        · exact h2 _ (by simp)
        · exact (le_of_lt h).trans (h2 x (by simp))
        · exact h2 _ (by simp [hy])
    · rw [if_neg h]
      obtain ⟨h1, h2⟩ := ih a
      refine ⟨List.mem_cons_of_mem _ h1, ?_⟩
      intro y hy
      rcases List.mem_cons.1 hy with rfl | hy
      · exact (not_lt.1 h).trans (h2 a (by simp))
      · exact h2 _ hy

theorem maxKey_max {l : List (Str × Nat)} {x : Str × Nat} (h : maxKey l = some x) : x ∈ l ∧ ∀ y ∈ l, y.2 ≤ x.2 := by
  cases l with
  | nil => cases h
  | cons a l =>
    simp only [maxKey, Option.some.injEq] at h
    subst h
    exact maxKey_foldl l a

theorem build_cur {ps : List Booked.Posting} {booking : Str → Booking} {inv : AMap Str (List Position)}
    (h : buildInventory ps booking = some inv) {acc : Str} {l : List Position} (hl : inv.get acc = some l) {p : Position} (hp : p ∈ l) :
    ∃ q ∈ ps, q.cur = p.cur := by
  obtain ⟨-, r, -, rfl⟩ := build_positions h hl
  simp only [positionsOf, List.mem_flatMap, List.mem_filter] at hp
  obtain ⟨c, -, hp, -⟩ := hp
  obtain ⟨q, hq, hc, -⟩ := visit_cur r hp
  have hq := List.mem_of_mem_filter hq
  simp only [onAccount, List.mem_map] at hq
  obtain ⟨z, hz, rfl⟩ := hq
  exact ⟨z, List.mem_of_mem_filter hz, hc.symm⟩

end Clj

/-- C55 for inventories with positions: whatever the iteration order of maps, the rollup is the one for a currency which is held, by as
many accounts as any. Missing: inventories without positions, see `C55_false`. -/
theorem C55_partial (order : AMap Str Nat → AMap Str Nat) (ho : ∀ m, (order m).Perm m) (inv : AMap Str (List Position))
    (h : ∃ x ∈ inv, x.2 ≠ []) :
    ∃ cur, rollup order inv = some (rollupBuild inv cur) ∧ holders inv cur ≠ 0 ∧ ∀ c, holders inv c ≤ holders inv cur := by
  unfold rollup
  cases hk : maxKey (order (curFreq inv)) with
  | none =>
    exfalso
    have e : order (curFreq inv) = [] := by
      cases hl : order (curFreq inv) with
      | nil => rfl
      | cons a l => rw [hl] at hk; cases hk
    obtain ⟨x, hx, hp⟩ := h
    obtain ⟨p, l, hp⟩ := List.exists_cons_of_ne_nil hp
    have hh : holders inv p.cur ≠ 0 := by
      unfold holders
      rw [Ne, List.length_eq_zero_iff, List.filter_eq_nil_iff]
      intro hc
      exact hc x hx (by simp [hp])
    have := (ho (curFreq inv)).mem_iff.2 (mem_curFreq.2 ⟨rfl, hh⟩)
    rw [e] at this
    cases this
  | some x =>
    obtain ⟨cur, n⟩ := x
    obtain ⟨h1, h2⟩ := maxKey_max hk
    obtain ⟨rfl, h0⟩ := mem_curFreq.1 ((ho _).mem_iff.1 h1)
    refine ⟨cur, rfl, h0, fun c => ?_⟩
    by_cases hc : holders inv c = 0
    · omega
    · exact h2 (c, holders inv c) ((ho _).mem_iff.2 (mem_curFreq.2 ⟨rfl, hc⟩))

/-- C55: as the documentation of `rollup` says, filtering by a currency makes it the currency of the rollup. -/
theorem C55_filtered (order : AMap Str Nat → AMap Str Nat) (ho : ∀ m, (order m).Perm m) (b : Beans) (fs : List Filter) (cur : Str)
    (inv : AMap Str (List Position)) (hi : inventory b (curIs cur :: fs) = some inv) (h : inv ≠ []) :
    rollup order inv = some (rollupBuild inv cur) := by
  have hk := C30_canonical _ _ inv hi
  have hw : inv.WF := sorted_WF hk.1
  obtain ⟨x, l, rfl⟩ := List.exists_cons_of_ne_nil h
  obtain ⟨c, e, h0, -⟩ := C55_partial order ho (x :: l) ⟨x, by simp, (hk.2 x.1 x.2 (AMap.get_of_mem hw (by simp))).1⟩
  rw [e]
  have : c = cur := by
    by_contra hc
    refine h0 ?_
    unfold holders
    rw [List.length_eq_zero_iff, List.filter_eq_nil_iff]
    intro y hy ha
    simp only [List.any_eq_true, decide_eq_true_eq] at ha
    obtain ⟨p, hp, rfl⟩ := ha
    have hy := AMap.get_of_mem hw (k := y.1) (v := y.2) hy
    obtain ⟨q, hq, hqc⟩ := build_cur hi hy hp
    rw [reportRows_eq] at hq
    simp only [List.mem_map, exists_exists_and_eq_and] at hq
    obtain ⟨z, hz, rfl⟩ := hq
    have hs := of_decide_eq_true (List.mem_filter.1 hz).2 (curIs cur) (by simp)
    simp only [curIs, Posted.seen, beq_iff_eq] at hs
    exact hc (hqc.symm.trans hs)
  rw [this]

/-- C55 is false: for an inventory without positions there is an exception instead of an empty rollup, whatever the iteration order; and
such inventories occur. -/
theorem C55_false (order : AMap Str Nat → AMap Str Nat) (ho : ∀ m, (order m).Perm m) :
    inventory { Ex.beans with directives := [] } [] = some [] ∧ rollup order [] = none := by
  refine ⟨rfl, ?_⟩
  have : order [] = [] := List.perm_nil.1 (ho [])
  simp [rollup, curFreq, this, maxKey]

/-- Two accounts hold dollars, one also kiwi dollars. -/
example : rollup id [(Ex.bank, [⟨⟨5, 0⟩, Ex.nzd, none⟩, ⟨⟨5, 0⟩, Ex.usd, none⟩]), (Ex.food, [⟨⟨1, 0⟩, Ex.usd, none⟩])] =
    some (rollupBuild [(Ex.bank, [⟨⟨5, 0⟩, Ex.nzd, none⟩, ⟨⟨5, 0⟩, Ex.usd, none⟩]), (Ex.food, [⟨⟨1, 0⟩, Ex.usd, none⟩])] Ex.usd) ∧
    inventory Ex.beans [curIs Ex.nzd] ≠ some [] := ⟨by decide +kernel, by decide +kernel⟩

end Limabean
