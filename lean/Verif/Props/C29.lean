/-
C29: the inventory conserves units.
-/
import Verif.Spec.Reports
import Verif.Proofs.InventoryLemmas
import Verif.Props.Examples

namespace Limabean

open Spec Clj

namespace Clj

theorem sum_indicator {β : Type} [DecidableEq β] (bs : List β) (hn : bs.Nodup) (b : β) (hb : b ∈ bs) (x : ℚ) :
    (bs.map fun c => if b = c then x else 0).sum = x := by
  induction bs with
  | nil => simp at hb
  | cons c bs ih =>
    rw [List.nodup_cons] at hn
    rw [List.map_cons, List.sum_cons]
    rcases List.mem_cons.1 hb with rfl | hb
    · have : (bs.map fun c => if b = c then x else 0) = bs.map fun _ => (0 : ℚ) :=
        List.map_congr_left fun c hc => if_neg (fun h : b = c => hn.1 (h ▸ hc))
      rw [this]
      simp
    · rw [if_neg (fun h : b = c => hn.1 (h ▸ hb)), ih hn.2 hb, zero_add]

/-- Summing by classes. -/
theorem sum_classes {α β : Type} [DecidableEq β] (g : α → β) (w : α → ℚ) (l : List α) (bs : List β) (hn : bs.Nodup)
    (hb : ∀ a ∈ l, g a ∈ bs) : (bs.map fun b => ((l.filter fun a => g a = b).map w).sum).sum = (l.map w).sum := by
  induction l with
  | nil => simp
  | cons a l ih =>
    rw [List.map_cons, List.sum_cons, ← ih fun x hx => hb x (by simp [hx]),
      ← sum_indicator bs hn (g a) (hb a (by simp)) (w a), ← List.sum_map_add]
    congr 1
    refine List.map_congr_left fun b _ => ?_
    by_cases h : g a = b
    · rw [List.filter_cons_of_pos (by simpa using h)]; simp [h]
    · rw [List.filter_cons_of_neg (by simpa using h)]; simp [h]

theorem key_units (p : Position) (u : Dec) : positionKey { p with units := u } = positionKey p := rfl

theorem sum_val (l : List Position) : (Dec.sum (l.map (·.units))).val = (l.map fun p => p.units.val).sum := by
  rw [Dec.val_sum, List.map_map]; rfl

theorem sum_const_mul (c : ℚ) (l : List Position) :
    (l.map fun p => c * p.units.val).sum = c * (l.map fun p => p.units.val).sum := by
  induction l with
  | nil => simp
  | cons p l ih => simp [ih, mul_add]

/-- The sum of one combined position. -/
theorem combine_weight {f : Position → ℚ} {l : List Position} {k : Option CostKey} {c : Str}
    (hf : ∀ p q : Position, p.cur = q.cur → positionKey p = positionKey q → f p = f q)
    (hk : ∀ p ∈ l, positionKey p = k) (hc : ∀ p ∈ l, p.cur = c) :
    ((combine none l).toList.map fun p => f p * p.units.val).sum = (l.map fun p => f p * p.units.val).sum := by
  cases l with
  | nil => rfl
  | cons p l =>
    rw [combine_cons]
    simp only [Option.toList_some, List.map_cons, List.map_nil, List.sum_cons, List.sum_nil, add_zero]
    have h1 : f { p with units := Dec.sum (p.units :: l.map (·.units)) } = f p := hf _ _ rfl rfl
    rw [h1]
    have h2 : (l.map fun q => f q * q.units.val) = l.map fun q => f p * q.units.val :=
      List.map_congr_left fun q hq => by
        rw [hf q p ((hc q (by simp [hq])).trans (hc p (by simp)).symm)
          ((hk q (by simp [hq])).trans (hk p (by simp)).symm)]
    rw [h2, sum_const_mul]
    have h3 := sum_val (p :: l)
    simp only [List.map_cons, List.sum_cons] at h3
    rw [h3, mul_add]

theorem filterMap_weight {K : Type} (g : K → Option Position) (w : Position → ℚ) (l : List K) :
    ((l.filterMap g).map w).sum = (l.map fun k => ((g k).toList.map w).sum).sum := by
  induction l with
  | nil => rfl
  | cons k l ih =>
    cases h : g k with
    | none => rw [List.filterMap_cons_none h, ih]; simp [h]
    | some p => rw [List.filterMap_cons_some h]; simp [h, ih]

theorem visit_weight {f : Position → ℚ} (hf : ∀ p q : Position, p.cur = q.cur → positionKey p = positionKey q → f p = f q)
    (r : Rule) (l : List Position) {c : Str} (hc : ∀ p ∈ l, p.cur = c) :
    ((scaOf r l).visit.map fun p => f p * p.units.val).sum = (l.map fun p => f p * p.units.val).sum := by
  cases r with
  | merge =>
    obtain ⟨m, h1, h2, h3⟩ := merge_fold l [] AMap.WF_nil
    have e : scaOf .merge l = .merge m := h1
    rw [e]
    simp only [Sca.visit]
    rw [filterMap_weight, ← sum_classes positionKey _ l (sortBy compareCostKeys m.keys) ((sortBy_perm _).nodup_iff.2 h2)]
    · congr 1
      refine List.map_congr_left fun k _ => ?_
      rw [h3, show AMap.get ([] : AMap (Option CostKey) Position) k = none from rfl]
      refine combine_weight (k := k) (c := c) hf (fun p hp => ?_) fun p hp => hc p (List.mem_of_mem_filter hp)
      simpa using List.of_mem_filter hp
    · intro p hp
      rw [mem_sortBy, AMap.mem_keys_iff, h3]
      have hm : p ∈ l.filter fun q => positionKey q = positionKey p := by simp [hp]
      cases hl : l.filter (fun q => positionKey q = positionKey p) with
      | nil => rw [hl] at hm; simp at hm
      | cons q qs => exact ⟨_, combine_cons q qs⟩
  | append =>
    have e : scaOf .append l = _ := append_fold l none []
    rw [e]
    simp only [Sca.visit, List.nil_append, List.map_append, List.sum_append]
    rw [combine_weight (k := none) (c := c) hf (fun p hp => by
        have := List.of_mem_filter hp
        simp only [Option.isNone_iff_eq_none] at this
        simp [positionKey, this]) fun p hp => hc p (List.mem_of_mem_filter hp)]
    clear e hc
    induction l with
    | nil => simp
    | cons p l ih =>
      cases h : p.cost with
      | none => simp [h, ← ih, add_assoc]
      | some c => simp [h, ← ih, add_left_comm]

theorem filter_zero_weight (f : Position → ℚ) (l : List Position) :
    ((l.filter fun p => !p.units.isZero).map fun p => f p * p.units.val).sum = (l.map fun p => f p * p.units.val).sum := by
  induction l with
  | nil => rfl
  | cons p l ih =>
    cases h : p.units.isZero with
    | false => simp [h, ih]
    | true =>
      rw [Dec.isZero_iff] at h
      have : p.units.isZero = true := (Dec.isZero_iff _).2 h
      simp [this, ih, h]

theorem flatMap_weight {K : Type} (g : K → List Position) (w : Position → ℚ) (l : List K) :
    ((l.flatMap g).map w).sum = (l.map fun k => ((g k).map w).sum).sum := by
  induction l with
  | nil => rfl
  | cons k l ih => simp [ih]

theorem positionsOf_weight {f : Position → ℚ}
    (hf : ∀ p q : Position, p.cur = q.cur → positionKey p = positionKey q → f p = f q) (r : Rule) (l : List Position) :
    ((positionsOf r l).map fun p => f p * p.units.val).sum = (l.map fun p => f p * p.units.val).sum := by
  unfold positionsOf
  rw [flatMap_weight, ← sum_classes (·.cur) _ l (sortBy cmpStr (l.map (·.cur)).dedup)
    ((sortBy_perm _).nodup_iff.2 (List.nodup_dedup _))]
  · congr 1
    refine List.map_congr_left fun c _ => ?_
    rw [filter_zero_weight]
    exact visit_weight hf r _ (c := c) fun p hp => by simpa using List.of_mem_filter hp
  · intro p hp
    rw [mem_sortBy, List.mem_dedup]
    exact List.mem_map.2 ⟨p, hp, rfl⟩

theorem build_none {ps : List Booked.Posting} {booking : Str → Booking} :
    buildInventory ps booking = none ↔ ∃ p ∈ ps, booking p.acc = .average := by
  unfold buildInventory
  rw [Option.map_eq_none_iff, cumulate_none]
  simp [AMap.get]

theorem build_weight {ps : List Booked.Posting} {booking : Str → Booking} {inv : AMap Str (List Position)}
    (h : buildInventory ps booking = some inv) (acc : Str) {f : Position → ℚ}
    (hf : ∀ p q : Position, p.cur = q.cur → positionKey p = positionKey q → f p = f q) :
    (((inv.get acc).getD []).map fun p => f p * p.units.val).sum =
      ((onAccount ps acc).map fun p => f p * p.units.val).sum := by
  rw [build_getD h]
  cases hr : bookingRule (booking acc) with
  | none =>
    have hb : booking acc = .average := by cases hb : booking acc <;> simp [hb, bookingRule] at hr ⊢
    cases hl : onAccount ps acc with
    | nil => rfl
    | cons p l =>
      have hp : p ∈ onAccount ps acc := by rw [hl]; simp
      simp only [onAccount, List.mem_map, List.mem_filter, decide_eq_true_eq] at hp
      obtain ⟨q, ⟨hq, rfl⟩, -⟩ := hp
      have : buildInventory ps booking = none := build_none.2 ⟨q, hq, hb⟩
      rw [h] at this
      cases this
  | some r => exact positionsOf_weight hf r _

theorem totalUnits_eq {α : Type} (units : α → Dec) (l : List α) (sel : α → Prop) [DecidablePred sel] :
    totalUnits units l sel = (l.map fun a => (if sel a then (1 : ℚ) else 0) * (units a).val).sum := by
  unfold totalUnits
  induction l with
  | nil => rfl
  | cons a l ih =>
    by_cases h : sel a
    · rw [List.filter_cons_of_pos (by simpa using h)]; simp [h, ih]
    · rw [List.filter_cons_of_neg (by simpa using h)]; simp [h, ih]

theorem sameCost_of_key {p q : Position} (h : positionKey p = positionKey q) : SameCost p.cost q.cost := by
  unfold positionKey at h
  unfold SameCost
  cases hp : p.cost <;> cases hq : q.cost <;> simp [hp, hq] at h ⊢
  tauto

theorem SameCost.symm {a b : Option Booked.Cost} (h : SameCost a b) : SameCost b a := by
  unfold SameCost at *
  cases a <;> cases b <;> simp_all

theorem SameCost.trans {a b c : Option Booked.Cost} (h : SameCost a b) (h' : SameCost b c) : SameCost a c := by
  unfold SameCost at *
  cases a <;> cases b <;> cases c <;> simp_all

/-- Conservation for a selection by currency and cost. -/
theorem build_sum {ps : List Booked.Posting} {booking : Str → Booking} {inv : AMap Str (List Position)}
    (h : buildInventory ps booking = some inv) (acc : Str) (sel : Str → Option Booked.Cost → Prop)
    [∀ c k, Decidable (sel c k)] (hs : ∀ c k k', SameCost k k' → (sel c k ↔ sel c k')) :
    totalUnits Position.units ((inv.get acc).getD []) (fun p => sel p.cur p.cost) =
      totalUnits Booked.Posting.units ps (fun p => p.acc = acc ∧ sel p.cur p.cost) := by
  rw [totalUnits_eq, build_weight h acc (f := fun p => if sel p.cur p.cost then 1 else 0), totalUnits_eq]
  · unfold onAccount
    rw [List.map_map]
    clear h
    induction ps with
    | nil => rfl
    | cons p ps ih =>
      by_cases ha : p.acc = acc
      · rw [List.filter_cons_of_pos (by simpa using ha)]
        simp only [List.map_cons, List.sum_cons, ih, ha, true_and]
        rfl
      · rw [List.filter_cons_of_neg (by simpa using ha)]
        simp only [List.map_cons, List.sum_cons, ih, ha, false_and, if_false]
        simp
  · intro p q h1 h2
    rw [h1]
    have := hs q.cur p.cost q.cost (sameCost_of_key h2)
    simp [this]

end Clj

/-- C29: in each account and currency the units of the inventory add up to those of the postings. -/
theorem C29_conserved (ps : List Booked.Posting) (booking : Str → Booking) (inv : AMap Str (List Position))
    (h : buildInventory ps booking = some inv) (acc cur : Str) :
    totalUnits Position.units ((inv.get acc).getD []) (fun p => p.cur = cur) =
      totalUnits Booked.Posting.units ps (fun p => p.acc = acc ∧ p.cur = cur) :=
  build_sum h acc (fun c _ => c = cur) fun _ _ _ _ => Iff.rfl

/-- C29: also for each cost separately. -/
theorem C29_conserved_per_cost (ps : List Booked.Posting) (booking : Str → Booking) (inv : AMap Str (List Position))
    (h : buildInventory ps booking = some inv) (acc cur : Str) (cost : Option Booked.Cost) :
    totalUnits Position.units ((inv.get acc).getD []) (fun p => p.cur = cur ∧ SameCost p.cost cost) =
      totalUnits Booked.Posting.units ps (fun p => p.acc = acc ∧ p.cur = cur ∧ SameCost p.cost cost) := by
  refine build_sum h acc (fun c k => c = cur ∧ SameCost k cost) fun c k k' hk => and_congr_right fun _ => ?_
  exact ⟨SameCost.trans (SameCost.symm hk), SameCost.trans hk⟩

/-- C29: the inventory exists unless an account with postings has the booking method `average`, which the front end does
not support. -/
theorem C29_defined (ps : List Booked.Posting) (booking : Str → Booking) :
    (∃ inv, buildInventory ps booking = some inv) ↔ ∀ p ∈ ps, booking p.acc ≠ .average := by
  rw [← Option.isSome_iff_exists, ← Option.ne_none_iff_isSome, Ne, build_none]
  simp

/-- Purchases of one lot in two postings, a sale, and a cash posting which cancels: one position remains. -/
example : (buildInventory
    [{ acc := Ex.bank, units := ⟨5, 0⟩, cur := Ex.usd, cost := some ⟨⟨2024, 1, 1⟩, ⟨15, 1⟩, ⟨75, 1⟩, Ex.nzd, none, false⟩ },
     { acc := Ex.bank, units := ⟨-20, 0⟩, cur := Ex.nzd },
     { acc := Ex.bank, units := ⟨-2, 0⟩, cur := Ex.usd, cost := some ⟨⟨2024, 1, 1⟩, ⟨150, 2⟩, ⟨3, 0⟩, Ex.nzd, none, false⟩ },
     { acc := Ex.bank, units := ⟨20, 0⟩, cur := Ex.nzd }] (fun _ => .strict)) =
    some [(Ex.bank, [⟨⟨3, 0⟩, Ex.usd, some ⟨⟨2024, 1, 1⟩, ⟨15, 1⟩, ⟨75, 1⟩, Ex.nzd, none, false⟩⟩])] := by decide +kernel

end Limabean
