/-
C30: the inventory is in canonical form.
-/
import Verif.Props.C29
import Verif.Props.C48

namespace Limabean

open Spec Clj

namespace Clj

theorem cmpStr_lt {s t : Str} : cmpStr s t = .lt ↔ s < t := by
  induction s generalizing t with
  | nil =>
    cases t with
    | nil => simp [cmpStr]
    | cons b t => simp [cmpStr]
  | cons a s ih =>
    cases t with
    | nil => simp [cmpStr]
    | cons b t =>
      rw [List.cons_lt_cons_iff, cmpStr, then_eq_lt, ih, compare_lt_iff_lt, compare_eq_iff_eq]
      refine or_congr Iff.rfl (and_congr_left fun _ => ⟨fun h => Char.ext (UInt32.toNat_inj.1 h), fun h => h ▸ rfl⟩)

theorem cmpDate_lt {a b : Date} : cmpDate a b = .lt ↔ DateLt a b := by
  unfold cmpDate DateLt
  simp only [then_eq_lt, compare_lt_iff_lt, compare_eq_iff_eq]

theorem nilFirst_some {α : Type} (cmp : α → α → Ordering) (a b : α) : nilFirst cmp (some a) (some b) = cmp a b := rfl

theorem nilFirst_lt {a b : Option Str} :
    nilFirst cmpStr a b = .lt ↔ (a = none ∧ b ≠ none ∨ ∃ x ∈ a, ∃ y ∈ b, x < y) := by
  cases a <;> cases b <;> simp [nilFirst, cmpStr_lt]

theorem mergeFlag_lt {a b : Bool} :
    nilFirst (fun _ _ => .eq) (mergeFlag a) (mergeFlag b) = .lt ↔ a = false ∧ b = true := by
  cases a <;> cases b <;> decide

theorem compareCostKeys_lt {p q : Position} :
    compareCostKeys (positionKey p) (positionKey q) = .lt ↔ CostLt p.cost q.cost := by
  unfold positionKey compareCostKeys
  cases p.cost with
  | none => cases q.cost <;> simp [nilFirst, CostLt]
  | some c =>
    cases q.cost with
    | none => simp [nilFirst, CostLt]
    | some d =>
      simp only [Option.map_some, nilFirst_some, CostLt, then_eq_lt, cmpDate_lt, cmpStr_lt, compare_lt_iff_lt,
        compare_eq_iff_eq, cmpDate_total.eq, cmpStr_total.eq, (nilFirst_total cmpStr_total).eq, nilFirst_lt, mergeFlag_lt]

theorem combine_mem {l : List Position} {p : Position} (h : combine none l = some p) :
    ∃ q ∈ l, p.cur = q.cur ∧ p.cost = q.cost := by
  cases l with
  | nil => cases h
  | cons q l =>
    rw [combine_cons] at h
    cases h
    exact ⟨q, by simp, rfl, rfl⟩

theorem visit_cur (r : Rule) {l : List Position} {p : Position} (h : p ∈ (scaOf r l).visit) :
    ∃ q ∈ l, p.cur = q.cur ∧ p.cost = q.cost := by
  cases r with
  | merge =>
    obtain ⟨m, h1, h2, h3⟩ := merge_fold l [] AMap.WF_nil
    have e : scaOf .merge l = .merge m := h1
    rw [e] at h
    simp only [Sca.visit, List.mem_filterMap] at h
    obtain ⟨k, -, hk⟩ := h
    rw [h3] at hk
    obtain ⟨q, hq, h⟩ := combine_mem hk
    exact ⟨q, List.mem_of_mem_filter hq, h⟩
  | append =>
    have e : scaOf .append l = _ := append_fold l none []
    rw [e] at h
    simp only [Sca.visit, List.mem_append, Option.mem_toList, List.nil_append] at h
    rcases h with h | h
    · obtain ⟨q, hq, h⟩ := combine_mem h
      exact ⟨q, List.mem_of_mem_filter hq, h⟩
    · exact ⟨p, List.mem_of_mem_filter h, rfl, rfl⟩

/-- The positions have one key for each cost. -/
def UniformKeys (l : List Position) : Prop :=
  ∀ p ∈ l, ∀ q ∈ l, compareCostKeys (positionKey p) (positionKey q) = .eq → positionKey p = positionKey q

theorem UniformKeys.sub {l l' : List Position} (h : UniformKeys l) (hs : ∀ p ∈ l', p ∈ l) : UniformKeys l' :=
  fun p hp q hq => h p (hs p hp) q (hs q hq)

theorem compareCostKeys_eq {p q : Position} :
    compareCostKeys (positionKey p) (positionKey q) = .eq ↔ SameCost p.cost q.cost := by
  rw [C48_total_order.2.2.2.2]
  unfold SameCost
  cases p.cost <;> cases q.cost <;> rfl

theorem uniformKeys_of {ps : List Booked.Posting} {acc : Str} (h : UniformCosts ps acc) : UniformKeys (onAccount ps acc) := by
  intro p hp q hq he
  rw [compareCostKeys_eq] at he
  simp only [onAccount, List.mem_map, List.mem_filter, decide_eq_true_eq] at hp hq
  obtain ⟨p, ⟨hp, hpa⟩, rfl⟩ := hp
  obtain ⟨q, ⟨hq, hqa⟩, rfl⟩ := hq
  have := h p hp q hq hpa hqa
  simp only [positionOf] at he
  cases hc : p.cost with
  | none =>
    cases hd : q.cost with
    | none => simp [positionKey, positionOf, hc, hd]
    | some d => rw [hc, hd] at he; exact he.elim
  | some c =>
    cases hd : q.cost with
    | none => rw [hc, hd] at he; exact he.elim
    | some d =>
      rw [hc, hd] at he
      obtain ⟨h1, h2, h3, h4, h5⟩ := he
      have h6 := this c hc d hd h3
      simp [positionKey, positionOf, hc, hd, h1, h2, h3, h4, h5, h6]

theorem merge_key {l : List Position} {m : AMap (Option CostKey) Position}
    (h3 : ∀ k, m.get k = combine (AMap.get ([] : AMap (Option CostKey) Position) k) (l.filter fun p => positionKey p = k))
    {k : Option CostKey} {p : Position} (hp : m.get k = some p) : positionKey p = k ∧ ∃ q ∈ l, positionKey q = k := by
  rw [h3] at hp
  obtain ⟨q, hq, -, hc⟩ := combine_mem hp
  have : positionKey q = k := by simpa using List.of_mem_filter hq
  refine ⟨?_, q, List.mem_of_mem_filter hq, this⟩
  rw [← this]
  simp [positionKey, hc]

theorem keys_uniform {l : List Position} (hu : UniformKeys l) {m : AMap (Option CostKey) Position}
    (h3 : ∀ k, m.get k = combine (AMap.get ([] : AMap (Option CostKey) Position) k) (l.filter fun p => positionKey p = k)) :
    ∀ k ∈ m.keys, ∀ k' ∈ m.keys, compareCostKeys k k' = fineCostKeys k k' := by
  intro k hk k' hk'
  obtain ⟨p, hp⟩ := (AMap.mem_keys_iff _ _).1 hk
  obtain ⟨p', hp'⟩ := (AMap.mem_keys_iff _ _).1 hk'
  obtain ⟨-, q, hq, rfl⟩ := merge_key h3 hp
  obtain ⟨-, q', hq', rfl⟩ := merge_key h3 hp'
  have := hu q hq q' hq'
  unfold fineCostKeys
  rw [← compareCostKeys_numbers]
  cases e : compareCostKeys (positionKey q) (positionKey q') with
  | lt => rfl
  | gt => rfl
  | eq =>
    rw [this e]
    simp

theorem visit_merge_sorted {l : List Position} (hu : UniformKeys l) :
    (scaOf .merge l).visit.Pairwise fun p q => CostLt p.cost q.cost := by
  obtain ⟨m, h1, h2, h3⟩ := merge_fold l [] AMap.WF_nil
  have e : scaOf .merge l = .merge m := h1
  rw [e]
  simp only [Sca.visit]
  have hc := keys_uniform hu h3
  rw [List.pairwise_filterMap, sortBy_congr hc]
  refine List.Pairwise.imp_of_mem ?_ (sortBy_strict fineCostKeys_total h2)
  intro k k' hm hm' hk p hp q hq
  rw [← compareCostKeys_lt, (merge_key h3 hp).1, (merge_key h3 hq).1, hc k (mem_sortBy.1 hm) k' (mem_sortBy.1 hm')]
  exact hk

theorem visit_merge_weak (l : List Position) :
    (scaOf .merge l).visit.Pairwise fun p q => ¬ CostLt q.cost p.cost := by
  obtain ⟨m, h1, h2, h3⟩ := merge_fold l [] AMap.WF_nil
  have e : scaOf .merge l = .merge m := h1
  rw [e]
  simp only [Sca.visit]
  rw [List.pairwise_filterMap]
  refine (sortBy_sorted compareCostKeys_pre m.keys).imp ?_
  intro k k' hk p hp q hq
  rw [← compareCostKeys_lt, (merge_key h3 hp).1, (merge_key h3 hq).1, compareCostKeys_pre.swap k k']
  unfold Le at hk
  cases e : compareCostKeys k k' <;> simp_all

theorem visit_append_sorted (l : List Position) :
    (scaOf .append l).visit.Pairwise fun _ q => q.cost.isSome = true := by
  have e : scaOf .append l = _ := append_fold l none []
  rw [e]
  simp only [Sca.visit, List.nil_append]
  have h1 : ∀ q ∈ l.filter (fun p => p.cost.isSome), q.cost.isSome = true := fun q hq => (List.mem_filter.1 hq).2
  rw [List.pairwise_append]
  refine ⟨?_, ?_, fun _ _ q hq => h1 q hq⟩
  · cases combine none (l.filter fun p => p.cost.isNone) <;> simp
  · rw [List.pairwise_iff_forall_sublist]
    intro a b hab
    exact h1 b (hab.subset (by simp))

/-- Sorting within the currencies gives sorting of the whole. -/
theorem positionsOf_sorted (r : Rule) (l : List Position) (R : Position → Position → Prop)
    (hR : ∀ c, (scaOf r (l.filter fun p => p.cur = c)).visit.Pairwise R) :
    (positionsOf r l).Pairwise fun p q => p.cur < q.cur ∨ p.cur = q.cur ∧ R p q := by
  unfold positionsOf
  have hcur : ∀ c, ∀ p ∈ (scaOf r (l.filter fun p => p.cur = c)).visit.filter (fun p => !p.units.isZero), p.cur = c := by
    intro c p hp
    obtain ⟨q, hq, h, -⟩ := visit_cur r (List.mem_of_mem_filter hp)
    rw [h]
    simpa using List.of_mem_filter hq
  rw [List.pairwise_flatMap]
  constructor
  · intro c _
    refine List.Pairwise.imp_of_mem ?_ ((hR c).filter _)
    intro p q hp hq h
    exact Or.inr ⟨(hcur c p hp).trans (hcur c q hq).symm, h⟩
  · refine (sortBy_strict cmpStr_total (List.nodup_dedup _)).imp fun {c d} hcd p hp q hq => ?_
    rw [hcur c p hp, hcur d q hq]
    exact Or.inl (cmpStr_lt.1 hcd)

theorem positionsOf_nonzero (r : Rule) (l : List Position) {p : Position} (h : p ∈ positionsOf r l) : p.units.val ≠ 0 := by
  simp only [positionsOf, List.mem_flatMap, List.mem_filter] at h
  obtain ⟨c, -, -, h⟩ := h
  intro h0
  rw [(Dec.isZero_iff _).2 h0] at h
  cases h

/-- The positions with a cost of an account that does not merge. -/
theorem positionsOf_append_lots (l : List Position) (c : Str) :
    (positionsOf .append l).filter (fun p => p.cost.isSome ∧ p.cur = c) =
      l.filter fun p => p.cost.isSome ∧ p.cur = c ∧ p.units.val ≠ 0 := by
  have one : ∀ d, ((scaOf .append (l.filter fun p => p.cur = d)).visit.filter fun p => !p.units.isZero).filter
      (fun p => p.cost.isSome ∧ p.cur = c) = if d = c then l.filter fun p => p.cost.isSome ∧ p.cur = c ∧ p.units.val ≠ 0 else [] := by
    intro d
    split
    · rename_i hd
      subst hd
      have e : scaOf .append (l.filter fun p => p.cur = d) = _ := append_fold _ none []
      rw [e]
      simp only [Sca.visit, List.nil_append, List.filter_append, List.filter_filter]
      have h1 : List.filter (fun p : Position => decide (p.cost.isSome ∧ p.cur = d) && !p.units.isZero)
          (combine none (l.filter fun p => p.cost.isNone && decide (p.cur = d))).toList = [] := by
        rw [List.filter_eq_nil_iff]
        intro p hp
        rw [Option.mem_toList] at hp
        obtain ⟨q, hq, -, hc⟩ := combine_mem hp
        have := List.of_mem_filter hq
        simp only [Bool.and_eq_true, Option.isNone_iff_eq_none] at this
        simp [hc, this.1]
      rw [h1, List.nil_append]
      refine List.filter_congr fun p _ => ?_
      have := Dec.isZero_iff p.units
      cases h : p.units.isZero <;> rw [h] at this <;> simp at this <;> simp [this]
    · rename_i hd
      rw [List.filter_eq_nil_iff]
      intro p hp
      obtain ⟨q, hq, h, -⟩ := visit_cur .append (List.mem_of_mem_filter hp)
      have hq' : q.cur = d := by simpa using List.of_mem_filter hq
      simp [h, hq', hd]
  unfold positionsOf
  have fl : ∀ cs : List Str, cs.Nodup →
      (cs.flatMap fun cur => (scaOf .append (l.filter fun p => p.cur = cur)).visit.filter fun p => !p.units.isZero).filter
        (fun p => p.cost.isSome ∧ p.cur = c) =
      if c ∈ cs then l.filter fun p => p.cost.isSome ∧ p.cur = c ∧ p.units.val ≠ 0 else [] := by
    intro cs hn
    induction cs with
    | nil => rfl
    | cons d cs ih =>
      rw [List.nodup_cons] at hn
      rw [List.flatMap_cons, List.filter_append, one, ih hn.2]
      by_cases hd : d = c
      · subst hd
        simp [hn.1]
      · simp [hd, Ne.symm hd]
  rw [fl _ ((sortBy_perm _).nodup_iff.2 (List.nodup_dedup _))]
  split
  · rfl
  · rename_i hc
    rw [mem_sortBy, List.mem_dedup] at hc
    symm
    rw [List.filter_eq_nil_iff]
    intro p hp hcon
    simp only [decide_eq_true_eq] at hcon
    exact hc (List.mem_map.2 ⟨p, hp, hcon.2.1⟩)

theorem nonEmpty_keys_sorted {m : AMap Str Inv} (hm : m.WF) : (nonEmpty m).keys.Pairwise (· < ·) := by
  unfold nonEmpty AMap.keys
  rw [List.pairwise_map, List.pairwise_filterMap]
  refine (sortBy_strict cmpStr_total hm).imp fun {a b} hab x hx y hy => ?_
  simp only at hx hy
  split at hx <;> cases hx
  split at hy <;> cases hy
  exact cmpStr_lt.1 hab

theorem build_keys_sorted {ps : List Booked.Posting} {booking : Str → Booking} {inv : AMap Str (List Position)}
    (h : buildInventory ps booking = some inv) : inv.keys.Pairwise (· < ·) := by
  unfold buildInventory at h
  rw [Option.map_eq_some_iff] at h
  obtain ⟨m, h1, rfl⟩ := h
  exact nonEmpty_keys_sorted (cumulate_get AMap.WF_nil h1).1

theorem build_positions {ps : List Booked.Posting} {booking : Str → Booking} {inv : AMap Str (List Position)}
    (h : buildInventory ps booking = some inv) {acc : Str} {l : List Position} (hl : inv.get acc = some l) :
    l ≠ [] ∧ ∃ r, bookingRule (booking acc) = some r ∧ l = positionsOf r (onAccount ps acc) := by
  rw [build_get h] at hl
  split at hl
  · cases hl
  · cases hr : bookingRule (booking acc) with
    | none => rw [hr] at hl; cases hl
    | some r =>
      rw [hr] at hl
      simp only [Option.map_some] at hl
      split at hl
      · rename_i x xs hx
        cases hl
        exact ⟨by simp, r, rfl, (Option.some.inj hx).symm⟩
      · cases hl

end Clj

/-- C30: accounts are in strictly ascending order; each has positions, none of them with zero units, in ascending order of
currency. -/
theorem C30_canonical (ps : List Booked.Posting) (booking : Str → Booking) (inv : AMap Str (List Position))
    (h : buildInventory ps booking = some inv) :
    inv.keys.Pairwise (· < ·) ∧
    ∀ acc l, inv.get acc = some l → l ≠ [] ∧ (∀ p ∈ l, p.units.val ≠ 0) ∧
      l.Pairwise fun p q => p.cur < q.cur ∨ p.cur = q.cur := by
  refine ⟨build_keys_sorted h, fun acc l hl => ?_⟩
  obtain ⟨h1, r, hr, rfl⟩ := build_positions h hl
  refine ⟨h1, fun p hp => positionsOf_nonzero r _ hp, ?_⟩
  refine (positionsOf_sorted r _ (fun _ _ => True) fun c => ?_).imp fun {p q} h => h.imp_right And.left
  rw [List.pairwise_iff_forall_sublist]
  exact fun _ => trivial

/-- C30, partial: for a merging method the positions are in ascending order of currency, then cost; and if on this account no cost
per unit occurs both with and without decimal places, the order is strict, so no two positions have the same currency and cost.
Missing: accounts where such costs occur. -/
theorem C30_merged_partial (ps : List Booked.Posting) (booking : Str → Booking) (inv : AMap Str (List Position))
    (h : buildInventory ps booking = some inv) (acc : Str) (hb : booking acc ≠ .none) (l : List Position)
    (hl : inv.get acc = some l) :
    l.Pairwise (fun p q => p.cur < q.cur ∨ p.cur = q.cur ∧ ¬ CostLt q.cost p.cost) ∧
    (UniformCosts ps acc → l.Pairwise (fun p q => p.cur < q.cur ∨ p.cur = q.cur ∧ CostLt p.cost q.cost) ∧
      l.Pairwise fun p q => ¬(p.cur = q.cur ∧ SameCost p.cost q.cost)) := by
  obtain ⟨h1, r, hr, rfl⟩ := build_positions h hl
  have : r = .merge := by cases hb' : booking acc <;> simp_all [bookingRule]
  subst this
  refine ⟨positionsOf_sorted .merge _ _ fun _ => visit_merge_weak _, fun hu => ?_⟩
  have h2 := positionsOf_sorted .merge (onAccount ps acc) (fun p q => CostLt p.cost q.cost) fun c =>
    visit_merge_sorted ((uniformKeys_of hu).sub fun p hp => List.mem_of_mem_filter hp)
  refine ⟨h2, h2.imp fun {p q} h => ?_⟩
  rintro ⟨e1, e2⟩
  rcases h with h | ⟨-, h⟩
  · rw [e1, ← cmpStr_lt, cmpStr_total.refl] at h; cases h
  · rw [← compareCostKeys_lt, compareCostKeys_eq.2 e2] at h; cases h

/-- Five bought at 10 and sold again at a cost given as 10.00. -/
def Ex.sold : List Booked.Posting :=
  [{ acc := Ex.bank, units := ⟨5, 0⟩, cur := Ex.usd, cost := some ⟨⟨2024, 1, 1⟩, ⟨10, 0⟩, ⟨50, 0⟩, Ex.nzd, none, false⟩ },
   { acc := Ex.bank, units := ⟨-5, 0⟩, cur := Ex.usd, cost := some ⟨⟨2024, 1, 1⟩, ⟨1000, 2⟩, ⟨-5000, 2⟩, Ex.nzd, none, false⟩ }]

/-- C30 is false: a lot which was bought at 10 and sold at 10.00 is shown as two positions, five and minus five at the same cost,
though nothing is left of it. -/
theorem C30_same_cost_twice : ∃ inv p q, buildInventory Ex.sold (fun _ => .strict) = some inv ∧ inv.get Ex.bank = some [p, q] ∧
    p.cur = q.cur ∧ SameCost p.cost q.cost ∧ p.units.val = 5 ∧ q.units.val = -5 :=
  ⟨[(Ex.bank, Ex.sold.map positionOf)], positionOf Ex.sold[0], positionOf Ex.sold[1], by decide +kernel, by decide +kernel,
    by decide +kernel⟩

/-- C30: for the method `none` each currency has at most one position without cost, first; then come the postings with
cost, unmerged, in the order of the postings. -/
theorem C30_unmerged (ps : List Booked.Posting) (booking : Str → Booking) (inv : AMap Str (List Position))
    (h : buildInventory ps booking = some inv) (acc : Str) (hb : booking acc = .none) (l : List Position)
    (hl : inv.get acc = some l) :
    l.Pairwise (fun p q => p.cur < q.cur ∨ p.cur = q.cur ∧ q.cost.isSome) ∧
    ∀ cur, (l.filter fun p => p.cost.isSome ∧ p.cur = cur).map (fun p => (p.units, p.cost)) =
      (ps.filter fun p => p.acc = acc ∧ p.cost.isSome ∧ p.cur = cur ∧ p.units.val ≠ 0).map fun p => (p.units, p.cost) := by
  obtain ⟨h1, r, hr, rfl⟩ := build_positions h hl
  rw [hb] at hr
  cases hr
  refine ⟨positionsOf_sorted .append _ (fun _ q => q.cost.isSome = true) fun _ => visit_append_sorted _, fun cur => ?_⟩
  rw [positionsOf_append_lots, onAccount, List.filter_map, List.map_map, List.filter_filter]
  congr 1
  refine List.filter_congr fun p _ => ?_
  rw [Bool.eq_iff_iff]
  rw [Bool.and_eq_true, Function.comp, decide_eq_true_iff, decide_eq_true_iff, decide_eq_true_iff]
  simp only [positionOf]
  tauto

/-- Two lots, bought in the order opposite to their dates, and cash: in canonical order. -/
example : (buildInventory
    [{ acc := Ex.bank, units := ⟨5, 0⟩, cur := Ex.usd, cost := some ⟨⟨2024, 1, 2⟩, ⟨15, 1⟩, ⟨75, 1⟩, Ex.nzd, none, false⟩ },
     { acc := Ex.bank, units := ⟨2, 0⟩, cur := Ex.usd, cost := some ⟨⟨2024, 1, 1⟩, ⟨15, 1⟩, ⟨3, 0⟩, Ex.nzd, none, false⟩ },
     { acc := Ex.bank, units := ⟨20, 0⟩, cur := Ex.nzd }] (fun _ => .fifo)).map (fun inv => inv.map fun x =>
       x.2.map fun p => (p.units.m, p.cost.map (·.date.d))) = some [[(20, none), (2, some 1), (5, some 2)]] := by
  decide +kernel

/-- The same without merging. -/
example : (buildInventory
    [{ acc := Ex.bank, units := ⟨5, 0⟩, cur := Ex.usd, cost := some ⟨⟨2024, 1, 2⟩, ⟨15, 1⟩, ⟨75, 1⟩, Ex.nzd, none, false⟩ },
     { acc := Ex.bank, units := ⟨2, 0⟩, cur := Ex.usd, cost := some ⟨⟨2024, 1, 1⟩, ⟨15, 1⟩, ⟨3, 0⟩, Ex.nzd, none, false⟩ },
     { acc := Ex.bank, units := ⟨20, 0⟩, cur := Ex.nzd }] (fun _ => .none)).map (fun inv => inv.map fun x =>
       x.2.map fun p => (p.units.m, p.cost.map (·.date.d))) = some [[(20, none), (5, some 2), (2, some 1)]] := by
  decide +kernel

end Limabean
