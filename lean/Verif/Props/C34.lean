/-
C34: balances and income statement are restrictions of the inventory.
-/
import Verif.Clj.Reports
import Verif.Server.ToyExt
import Verif.Props.C31
import Verif.Props.C32
import Verif.Spec.Selection

namespace Limabean

open Spec Clj

namespace Clj

theorem AMap_ext {V : Type} {m m' : AMap Str V} (h : m.WF) (h' : m'.WF) (hk : m.keys = m'.keys)
    (hg : ∀ k, m.get k = m'.get k) : m = m' := by
  induction m generalizing m' with
  | nil =>
    cases m' with
    | nil => rfl
    | cons x m' => simp [AMap.keys] at hk
  | cons x m ih =>
    cases m' with
    | nil => simp [AMap.keys] at hk
    | cons y m' =>
      obtain ⟨k, v⟩ := x
      obtain ⟨k', v'⟩ := y
      simp only [AMap.keys, List.map_cons, List.cons.injEq] at hk
      obtain ⟨rfl, hk⟩ := hk
      simp only [AMap.WF, AMap.keys, List.map_cons, List.nodup_cons] at h h'
      have e := hg k
      simp only [AMap.get, if_true, Option.some.injEq] at e
      subst e
      congr 1
      refine ih h.2 h'.2 hk fun c => ?_
      by_cases hc : k = c
      · subst hc
        rw [(AMap.get_eq_none_iff m k).2 h.1, (AMap.get_eq_none_iff m' k).2 h'.1]
      · have := hg c
        simpa [AMap.get, hc] using this

theorem get_filter {V : Type} (m : AMap Str V) (P : Str → Bool) (k : Str) :
    AMap.get (m.filter fun x => P x.1) k = if P k then m.get k else none := by
  induction m with
  | nil => simp
  | cons x m ih =>
    obtain ⟨a, v⟩ := x
    by_cases hk : a = k
    · subst hk
      cases hp : P a with
      | true => simp [hp, AMap.get]
      | false => simp [hp, ih]
    · cases hp : P a with
      | true => simp [hp, AMap.get, hk, ih]
      | false => simp [hp, AMap.get, hk, ih]

theorem sorted_WF {V : Type} {m : AMap Str V} (h : m.keys.Pairwise (· < ·)) : m.WF :=
  h.imp fun {a b} hab e => by
    subst e
    rw [← cmpStr_lt, cmpStr_total.refl] at hab
    cases hab

/-- Maps with ascending keys and the same values are the same. -/
theorem sorted_ext {V : Type} {m m' : AMap Str V} (h : m.keys.Pairwise (· < ·)) (h' : m'.keys.Pairwise (· < ·))
    (hg : ∀ k, m.get k = m'.get k) : m = m' := by
  refine AMap_ext (sorted_WF h) (sorted_WF h') ?_ hg
  refine strict_unique cmpStr_total (h.imp fun h => cmpStr_lt.2 h) (h'.imp fun h => cmpStr_lt.2 h) fun a => ?_
  rw [AMap.mem_keys_iff, AMap.mem_keys_iff, hg]

theorem build_restrict {ps : List Booked.Posting} {booking : Str → Booking} {inv : AMap Str (List Position)} (P : Str → Bool)
    (h : buildInventory ps booking = some inv) :
    buildInventory (ps.filter fun p => P p.acc) booking = some (inv.filter fun x => P x.1) := by
  obtain ⟨inv', h'⟩ := (C29_defined (ps.filter fun p => P p.acc) booking).2 fun p hp =>
    (C29_defined ps booking).1 ⟨inv, h⟩ p (List.mem_of_mem_filter hp)
  rw [h']
  congr 1
  refine sorted_ext (build_keys_sorted h') ?_ fun k => ?_
  · have := build_keys_sorted h
    unfold AMap.keys at *
    exact this.sublist (List.filter_sublist.map _)
  · rw [get_filter, build_get h', build_get h]
    have e : onAccount (ps.filter fun p => P p.acc) k = if P k then onAccount ps k else [] := by
      unfold onAccount
      rw [List.filter_filter]
      cases hp : P k with
      | true =>
        rw [if_pos rfl]
        congr 1
        refine List.filter_congr fun p _ => ?_
        by_cases hk : p.acc = k <;> simp [hk, hp]
      | false =>
        rw [if_neg (by simp), List.map_eq_nil_iff, List.filter_eq_nil_iff]
        intro p _
        by_cases hk : p.acc = k <;> simp [hk, hp]
    rw [e]
    cases P k <;> simp

theorem inventory_restrict (b : Beans) (fs : List Filter) (inv : AMap Str (List Position)) (h : inventory b fs = some inv)
    (ts : List Str) :
    inventory b (fs ++ [subAcc ts]) = some (inv.filter fun x => ts.any fun t => decide (Below t x.1)) := by
  unfold inventory reportRows at *
  rw [(C32_all_of _ _ _ _).2.2, ← build_restrict (fun a => ts.any fun t => decide (Below t a)) h, List.filter_map]
  congr 1
  simp only [allOf, List.isEmpty_cons, Bool.false_eq_true, if_false, List.all_cons, List.all_nil, Bool.and_true]
  congr 1
  refine List.filter_congr fun r _ => ?_
  rw [Bool.eq_iff_iff, (C32_sub_acc ts r.fields).2]
  simp only [Row.fields, Option.some.injEq, exists_eq_left', Function.comp, List.any_eq_true, decide_eq_true_eq]
  rfl

theorem reportRows_eq (ds : List Booked.Directive) (fs : List Filter) :
    reportRows ds fs = (selection ds fs).map fun x =>
      { date := x.date, payee := x.payee, narration := x.narration, posting := x.posting } := by
  have e : postingRows ds = (allPosted ds).map fun x =>
      { date := x.date, payee := x.payee, narration := x.narration, posting := x.posting } := by
    unfold postingRows allPosted
    rw [List.map_flatMap]
    congr 1
    funext d
    cases d.variant <;> simp
  have e' : ∀ l : List Row, allOf Row.fields fs l = l.filter fun x => fs.all fun f => f x.fields := by
    intro l
    unfold allOf
    split
    · rename_i h
      rw [List.isEmpty_iff] at h
      simp [h]
    · rfl
  rw [reportRows, e', e, selection, List.filter_map]
  congr 1
  refine List.filter_congr fun x _ => ?_
  rw [Bool.eq_iff_iff, decide_eq_true_iff]
  simp [Selected, Row.fields, Posted.seen]

end Clj

/-- C34, for the inventory: in each account and currency its units add up to those of the selected postings of the ledger. -/
theorem C34_inventory (b : Beans) (fs : List Filter) (inv : AMap Str (List Position)) (h : inventory b fs = some inv)
    (acc cur : Str) :
    totalUnits Position.units ((inv.get acc).getD []) (fun p => p.cur = cur) =
      totalUnits (fun x => x.posting.units) (selection b.directives fs)
        (fun x => x.posting.acc = acc ∧ x.posting.cur = cur) := by
  rw [inventory, reportRows_eq, List.map_map] at h
  rw [C29_conserved _ _ _ h]
  unfold totalUnits
  rw [List.filter_map, List.map_map]
  rfl

/-- C34: the balances are the inventory restricted to the accounts at or below the names for assets and liabilities, the
income statement likewise for income and expenses. -/
theorem C34_restrictions (b : Beans) (fs : List Filter) (inv : AMap Str (List Position)) (h : inventory b fs = some inv) :
    balances b fs = some (inv.filter fun x => Below b.options.nameAssets x.1 ∨ Below b.options.nameLiabilities x.1) ∧
    incomeStatement b fs = some (inv.filter fun x => Below b.options.nameIncome x.1 ∨ Below b.options.nameExpenses x.1) := by
  unfold balances incomeStatement
  rw [inventory_restrict b fs inv h, inventory_restrict b fs inv h]
  simp

/-- C34: when no name for assets or liabilities is at or below one for income or expenses, nor the other way round, no account
is in both reports. -/
theorem C34_disjoint (b : Beans) (fs : List Filter) (inv bal inc : AMap Str (List Position))
    (h : inventory b fs = some inv) (hb : balances b fs = some bal) (hi : incomeStatement b fs = some inc)
    (hn : ∀ x ∈ [b.options.nameAssets, b.options.nameLiabilities], ∀ y ∈ [b.options.nameIncome, b.options.nameExpenses],
      ¬ Below x y ∧ ¬ Below y x) (acc : Str) : ¬ (acc ∈ bal.keys ∧ acc ∈ inc.keys) := by
  rintro ⟨h1, h2⟩
  obtain ⟨e1, e2⟩ := C34_restrictions b fs inv h
  rw [hb, Option.some.injEq] at e1
  rw [hi, Option.some.injEq] at e2
  subst e1 e2
  have key : ∀ {x y : Str}, Below x acc → Below y acc → Below x y ∨ Below y x :=
    fun hx hy => List.prefix_or_prefix_of_prefix hx hy
  simp only [AMap.keys, List.mem_map, List.mem_filter, decide_eq_true_eq, Prod.exists, exists_and_right, exists_eq_right] at h1 h2

  replace h1 := h1.2
  replace h2 := h2.2
  simp only [List.mem_cons, List.not_mem_nil, or_false, forall_eq_or_imp, forall_eq] at hn
  obtain ⟨⟨n1, n2⟩, n3, n4⟩ := hn
  rcases h1 with h1 | h1 <;> rcases h2 with h2 | h2 <;> have h3 := key h1 h2 <;> tauto

/-- The reports of a small ledger. -/
def Ex.beans : Beans :=
  { directives := [{ idx := 0, date := ⟨2024, 1, 1⟩, variant := .transaction { flag := str% "*", postings :=
      [{ acc := Ex.current, units := ⟨-1250, 2⟩, cur := Ex.nzd }, { acc := Ex.food, units := ⟨1250, 2⟩, cur := Ex.nzd }] } }]
    options := Toy.options
    registry := { defaultBooking := .strict, accs := [], curs := [] } }

example : inventory Ex.beans [] = some [(Ex.current, [⟨⟨-1250, 2⟩, Ex.nzd, none⟩]), (Ex.food, [⟨⟨1250, 2⟩, Ex.nzd, none⟩])] ∧
    balances Ex.beans [] = some [(Ex.current, [⟨⟨-1250, 2⟩, Ex.nzd, none⟩])] ∧
    incomeStatement Ex.beans [] = some [(Ex.food, [⟨⟨1250, 2⟩, Ex.nzd, none⟩])] := by
  refine ⟨?_, ?_, ?_⟩ <;> decide +kernel

end Limabean
