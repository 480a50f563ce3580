/-
C120: an account shows the same in every report.

What an account and those below it hold in a currency can be found out in three ways: in the rollup at the account, in the inventory
restricted to the account with `sub-acc`, as the sum of all its positions, and in the journal restricted likewise, as the balance of its
last entry. All three are the sum of the postings; an account which the rollup does not show, and a journal without entries, stand for zero.
-/
import Verif.Props.C55
import Verif.Props.C60
import Verif.Props.C70
import Verif.Props.C93
import Verif.Props.C94

namespace Limabean

open Spec Clj

variable {E : Ext} {L : BookLib}

/-- What a rollup shows at an account; nothing is zero. -/
def Spec.shownAt (r : AMap Str RollupEntry) (acc : Str) : ℚ :=
  match r.get acc with
  | some e => shown e
  | none => 0

/-- The balance after the last of some balances, in a currency; zero before the first. -/
def Spec.lastBalance (bals : List (List Clj.Position)) (cur : Str) : ℚ :=
  match bals.getLast? with
  | some l => totalUnits Clj.Position.units l (fun p => p.cur = cur)
  | none => 0

namespace Clj

/-- What the filter for an account and those below it selects of the selected postings. -/
theorem selection_subAcc (ds : List Booked.Directive) (acc cur : Str) (fs : List Filter) :
    totalUnits (fun x : Posted => x.posting.units) (selection ds (subAcc [acc] :: fs)) (fun x => x.posting.cur = cur) =
      totalUnits (fun x => x.posting.units) (selection ds fs) (fun x => Below acc x.posting.acc ∧ x.posting.cur = cur) := by
  unfold totalUnits selection
  rw [List.filter_filter, List.filter_filter]
  congr 2
  refine List.filter_congr fun x _ => ?_
  have h := (C32_sub_acc [acc] x.seen).2
  have e : x.seen.acc = some x.posting.acc := rfl
  simp only [e, Option.some.injEq, exists_eq_left', List.mem_singleton, exists_eq_left] at h
  have h' : Selected (subAcc [acc] :: fs) x ↔ Below acc x.posting.acc ∧ Selected fs x := by
    unfold Selected
    rw [List.forall_mem_cons, h]
    rfl
  by_cases h1 : Below acc x.posting.acc <;> by_cases h2 : Selected fs x <;> by_cases h3 : x.posting.cur = cur <;> simp [h1, h2, h3, h']

theorem inventory_all {b : Beans} {fs : List Filter} {inv : AMap Str (List Position)} (h : inventory b fs = some inv) (cur : Str) :
    grandTotal inv cur = totalUnits (fun x : Posted => x.posting.units) (selection b.directives fs) (fun x => x.posting.cur = cur) := by
  rw [inventory_total h]
  unfold totalUnits
  induction selection b.directives fs with
  | nil => rfl
  | cons x l ih =>
    rw [List.map_cons, List.sum_cons, ih, List.filter_cons]
    by_cases hc : x.posting.cur = cur <;> simp [unitsIn, hc]

theorem journal_last (b : Beans) (fs : List Filter) (cur : Str) :
    lastBalance ((journal b fs).map JournalEntry.bal) cur =
      totalUnits (fun x : Posted => x.posting.units) (selection b.directives fs) (fun x => x.posting.cur = cur) := by
  have hr := C35_rows b fs
  have hsum : totalUnits (fun x : JournalEntry => x.row.posting.units) (journal b fs) (fun x => x.row.posting.cur = cur) =
      totalUnits (fun x : Posted => x.posting.units) (selection b.directives fs) (fun x => x.posting.cur = cur) := by
    generalize journal b fs = j at *
    generalize selection b.directives fs = l at *
    induction j generalizing l with
    | nil =>
      cases l with
      | nil => rfl
      | cons => cases hr
    | cons e j ih =>
      cases l with
      | nil => cases hr
      | cons x l =>
        rw [List.map_cons, List.map_cons, List.cons.injEq] at hr
        have := ih l hr.2
        unfold totalUnits at *
        rw [List.filter_cons, List.filter_cons]
        have h1 : e.row.posting.cur = x.posting.cur := by rw [hr.1]
        have h2 : e.row.posting.units = x.posting.units := by rw [hr.1]
        by_cases hc : x.posting.cur = cur
        · simp only [h1, hc, decide_true, if_true, List.map_cons, List.sum_cons, h2, this]
        · simp only [h1, hc, decide_false, Bool.false_eq_true, if_false, this]
  rw [← hsum]
  unfold lastBalance
  rw [List.getLast?_map]
  cases hl : (journal b fs).getLast? with
  | none =>
    rw [List.getLast?_eq_none_iff] at hl
    rw [hl]
    rfl
  | some e =>
    rw [List.getLast?_eq_getElem?] at hl
    have hb := (C35_balance b fs _ e hl).2.2 cur
    rw [Option.map_some]
    simp only
    rw [hb, List.take_of_length_le (by omega)]

theorem rollup_shown {inv : AMap Str (List Position)} (h : inv.WF) (hw : ∀ acc ∈ inv.keys, WellNamed acc) (cur acc : Str) :
    shownAt (rollupBuild inv cur) acc = subtotal inv cur acc := by
  unfold shownAt
  cases he : (rollupBuild inv cur).get acc with
  | some e => exact shown_eq h hw he
  | none =>
    have hn : acc ∉ (rollupBuild inv cur).keys := (AMap.get_eq_none_iff _ _).1 he
    rw [C36_shown inv cur h hw] at hn
    simp only [not_exists, not_and] at hn
    unfold subtotal
    simp only
    symm
    refine List.sum_eq_zero fun q hq => ?_
    obtain ⟨x, hx, rfl⟩ := List.mem_map.1 hq
    rw [List.mem_filter, decide_eq_true_iff] at hx
    by_contra hne
    refine hn x.1 ?_ hx.2
    unfold ownUnits
    rw [AMap.get_of_mem h (k := x.1) (v := x.2) hx.1]
    exact hne

end Clj

/-- **C120**, the inventory and the journal: restricted to an account and those below it, the sum of the positions of the inventory is
what the full inventory has there, and what the last entry of the journal shows; in each currency. If there is a full inventory, there is
the restricted one. -/
theorem C120_restricted (b : Beans) (fs : List Filter) {inv : AMap Str (List Position)} (hi : inventory b fs = some inv) (acc cur : Str) :
    ∃ part, inventory b (subAcc [acc] :: fs) = some part ∧ grandTotal part cur = subtotal inv cur acc ∧
      lastBalance ((journal b (subAcc [acc] :: fs)).map JournalEntry.bal) cur = subtotal inv cur acc ∧
      subtotal inv cur acc = totalUnits (fun x => x.posting.units) (selection b.directives fs)
        (fun x => Below acc x.posting.acc ∧ x.posting.cur = cur) := by
  obtain ⟨part, hp⟩ : ∃ part, inventory b (subAcc [acc] :: fs) = some part := by
    rw [inventory_some]
    intro x hx
    exact (inventory_some b fs).1 ⟨inv, hi⟩ x ((mem_selection_cons _ _ _ x).1 hx).2
  have hs := subtotal_inventory b fs inv hi acc cur
  refine ⟨part, hp, ?_, ?_, hs⟩
  · rw [inventory_all hp, hs, selection_subAcc]
  · rw [journal_last, hs, selection_subAcc]

/-- **C120**, the rollup: of an inventory which is restricted to a currency, it shows at each account what the inventory restricted to
the account has in the currency, and what the last entry of the journal of the account shows. -/
theorem C120_rollup (order : AMap Str Nat → AMap Str Nat) (ho : ∀ m, (order m).Perm m) (b : Beans) (fs : List Filter) (acc cur : Str)
    {inv part : AMap Str (List Position)} (hi : inventory b (curIs cur :: fs) = some inv) (hw : ∀ a ∈ inv.keys, WellNamed a)
    {r : AMap Str RollupEntry} (hr : rollup order inv = some r) (hp : inventory b (subAcc [acc] :: fs) = some part) :
    shownAt r acc = grandTotal part cur ∧
      shownAt r acc = lastBalance ((journal b (subAcc [acc] :: fs)).map JournalEntry.bal) cur := by
  have hwf : inv.WF := sorted_WF (C30_canonical _ _ inv hi).1
  have hne : inv ≠ [] := by
    rintro rfl
    rw [(C55_false order ho).2] at hr
    cases hr
  have e := C55_filtered order ho b fs cur inv hi hne
  rw [hr, Option.some.injEq] at e
  subst e
  rw [rollup_shown hwf hw, inventory_all hp, journal_last, selection_subAcc, subtotal_inventory _ _ _ hi]
  have : totalUnits (fun x : Posted => x.posting.units) (selection b.directives (curIs cur :: fs))
      (fun x => Below acc x.posting.acc ∧ x.posting.cur = cur) =
      totalUnits (fun x => x.posting.units) (selection b.directives fs) (fun x => Below acc x.posting.acc ∧ x.posting.cur = cur) := by
    unfold totalUnits selection
    rw [List.filter_filter, List.filter_filter]
    congr 2
    refine List.filter_congr fun x _ => ?_
    have hc : curIs cur x.seen = true ↔ x.posting.cur = cur := by
      rw [(C32_fields x.seen).2.1 cur]
      exact ⟨fun h => Option.some.inj h, fun h => congrArg some h⟩
    have h' : Selected (curIs cur :: fs) x ↔ x.posting.cur = cur ∧ Selected fs x := by
      unfold Selected
      rw [List.forall_mem_cons, hc]
    by_cases h1 : Below acc x.posting.acc <;> by_cases h2 : Selected fs x <;> by_cases h3 : x.posting.cur = cur <;> simp [h1, h2, h3, h']
  rw [this]
  exact ⟨rfl, rfl⟩

/-- **C120**, for a loaded beanfile without plugins for booked directives: what the rollup shows at an account, what the inventory of the
account has, and what the last entry of its journal shows, are the same. -/
theorem C120_loaded (F : Front E L) (hinj : Function.Injective F.hash) (ho : IsMapOrder F.ordm) (hs : IsOrder F.ord) (hE : SpanStore E)
    (hL : DatesExist L) (src : E.Sources) {p : Parsed} (hp : OptionsOk p.options) (hd : ∀ d ∈ p.directives, DatesOk d)
    (hon : OptionsNamed p.options) (hoo : (p.options.others.map Prod.fst).Nodup) (order : AMap Str Nat → AMap Str Nat)
    (hreg : F.registry = fun ds o => some (registryOf order ds o))
    {m : LoadedBeans E} (h : loadBeanfile F (.ready src (.ok p)) = .ok m) (he : m.error = none) (hb : bookedPlugins F p m.options = [])
    (freq : AMap Str Nat → AMap Str Nat) (hfreq : ∀ m, (freq m).Perm m) (fs : List Filter) (acc cur : Str)
    {inv part : AMap Str (List Position)} (hi : m.inventory (curIs cur :: fs) = some inv) (hw : ∀ a ∈ inv.keys, WellNamed a)
    {r : AMap Str RollupEntry} (hr : rollup freq inv = some r) (hpart : m.inventory (subAcc [acc] :: fs) = some part) :
    ∃ l, m.journal (subAcc [acc] :: fs) = some l ∧
      shownAt r acc = grandTotal part cur ∧ shownAt r acc = lastBalance (l.map Prod.snd) cur := by
  obtain ⟨src', k, xs, ds, out, w, -, -, -, -, h5⟩ := C70_reports F hinj ho hs hE hL src hp hd hon hoo order hreg h he hb
  obtain ⟨-, -, -, l, hl, hj⟩ := h5 (subAcc [acc] :: fs)
  rw [(h5 _).1] at hi hpart
  refine ⟨l, hl, ?_⟩
  have e : l.map Prod.snd = (journal ⟨out, p.options, registryBuild order out (optionsMap p.options)⟩ (subAcc [acc] :: fs)).map JournalEntry.bal := by
    clear hl
    generalize journal _ _ = j at hj
    induction hj with
    | nil => rfl
    | cons hx _ ih => rw [List.map_cons, List.map_cons, ih, hx.bal]
  rw [e]
  exact C120_rollup freq hfreq _ fs acc cur hi hw hr hpart

namespace Ex

/-- Purchases in two shops, which are below one account, and a refund. -/
def eating : List Booked.Directive :=
  let post (acc : Str) (n : Int) : Booked.Posting := { acc := acc, units := ⟨n, 0⟩, cur := nzd }
  let txn (day : Nat) (ps : List Booked.Posting) : Booked.Directive :=
    { idx := day, date := ⟨2024, 1, day⟩, variant := .transaction { flag := str% "*", postings := ps } }
  [txn 1 [post (str% "Expenses:Food:Bread") 5, post bank (-5)], txn 2 [post (str% "Expenses:Food:Wine") 12, post bank (-12)],
   txn 3 [post (str% "Expenses:Food") (-2), post bank 2], txn 4 [post (str% "Expenses:Foods") 100, post bank (-100)]]

end Ex

/-- Non-vacuity of C120: three accounts make up the fifteen dollars at their common account, in all reports; an account whose name only
begins alike is not counted. -/
example : let b : Beans := { Ex.beans with directives := Ex.eating }
    let food := str% "Expenses:Food"
    (match inventory b [curIs Ex.nzd], inventory b [subAcc [food]] with
      | some inv, some part => decide
        ((∀ a ∈ inv.keys, WellNamed a) ∧ (rollup id inv).map (fun r => shownAt r food) = some 15 ∧ grandTotal part Ex.nzd = 15 ∧
        lastBalance ((journal b [subAcc [food]]).map JournalEntry.bal) Ex.nzd = 15 ∧ part.length = 3 ∧ inv.length = 5)
      | _, _ => false) = true := by
  decide +kernel

end Limabean
