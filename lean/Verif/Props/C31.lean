/-
C31: the inventory does not depend on the order of the postings.
-/
import Verif.Props.C30

namespace Limabean

open Spec Clj

namespace Clj

/-- The same position, as numbers. -/
def SamePosition (p q : Position) : Prop := p.units = q.units ∧ p.cur = q.cur ∧ SameCost p.cost q.cost

theorem combine_rel {l l' : List Position} (h : l.Perm l') {k : Option CostKey} {c : Str} (hk : ∀ p ∈ l, positionKey p = k)
    (hc : ∀ p ∈ l, p.cur = c) : Option.Rel SamePosition (combine none l) (combine none l') := by
  cases l with
  | nil => rw [h.symm.eq_nil]; exact .none
  | cons p l =>
    cases l' with
    | nil => simpa using h.length_eq
    | cons q l' =>
      rw [combine_cons, combine_cons]
      have hq : q ∈ p :: l := h.symm.subset (by simp)
      refine .some ⟨?_, ?_, ?_⟩
      · exact Dec.sum_perm (h.map (·.units))
      · exact (hc p (by simp)).trans (hc q hq).symm
      · exact sameCost_of_key ((hk p (by simp)).trans (hk q hq).symm)

theorem forall₂_filterMap {K α : Type} {R : α → α → Prop} {g g' : K → Option α} (ks : List K)
    (h : ∀ k ∈ ks, Option.Rel R (g k) (g' k)) : List.Forall₂ R (ks.filterMap g) (ks.filterMap g') := by
  induction ks with
  | nil => exact .nil
  | cons k ks ih =>
    have hk := h k (by simp)
    have ih := ih fun k hk => h k (by simp [hk])
    cases e : g k with
    | none =>
      cases e' : g' k with
      | none => rw [List.filterMap_cons_none e, List.filterMap_cons_none e']; exact ih
      | some b => rw [e, e'] at hk; cases hk
    | some a =>
      cases e' : g' k with
      | none => rw [e, e'] at hk; cases hk
      | some b =>
        rw [e, e'] at hk
        rw [List.filterMap_cons_some e, List.filterMap_cons_some e']
        cases hk with
        | some h => exact .cons h ih

theorem forall₂_filter {α : Type} {R : α → α → Prop} {p : α → Bool} {l l' : List α} (h : List.Forall₂ R l l')
    (hp : ∀ a b, R a b → p a = p b) : List.Forall₂ R (l.filter p) (l'.filter p) := by
  induction h with
  | nil => exact .nil
  | cons hab _ ih =>
    rename_i a b _ _ _
    have := hp a b hab
    cases e : p b with
    | false => rw [List.filter_cons_of_neg (by simp [e, this]), List.filter_cons_of_neg (by simp [e])]; exact ih
    | true => rw [List.filter_cons_of_pos (by simp [e, this]), List.filter_cons_of_pos (by simp [e])]; exact .cons hab ih

theorem forall₂_flatMap {K α : Type} {R : α → α → Prop} {g g' : K → List α} (ks : List K)
    (h : ∀ k ∈ ks, List.Forall₂ R (g k) (g' k)) : List.Forall₂ R (ks.flatMap g) (ks.flatMap g') := by
  induction ks with
  | nil => exact .nil
  | cons k ks ih =>
    rw [List.flatMap_cons, List.flatMap_cons]
    exact List.rel_append (h k (by simp)) (ih fun k hk => h k (by simp [hk]))

/-- Related element by element, after rearranging the second list. -/
def PermRel {α : Type} (R : α → α → Prop) (l l' : List α) : Prop := ∃ l'', l''.Perm l' ∧ List.Forall₂ R l l''

theorem PermRel.length_eq {α : Type} {R : α → α → Prop} {l l' : List α} (h : PermRel R l l') : l.length = l'.length := by
  obtain ⟨l'', h1, h2⟩ := h
  rw [h2.length_eq, h1.length_eq]

theorem permRel_filter {α : Type} {R : α → α → Prop} {p : α → Bool} {l l' : List α} (h : PermRel R l l')
    (hp : ∀ a b, R a b → p a = p b) : PermRel R (l.filter p) (l'.filter p) := by
  obtain ⟨l'', h1, h2⟩ := h
  exact ⟨l''.filter p, h1.filter p, forall₂_filter h2 hp⟩

theorem permRel_flatMap {K α : Type} {R : α → α → Prop} {g g' : K → List α} (ks : List K)
    (h : ∀ k ∈ ks, PermRel R (g k) (g' k)) : PermRel R (ks.flatMap g) (ks.flatMap g') := by
  induction ks with
  | nil => exact ⟨[], .refl _, .nil⟩
  | cons k ks ih =>
    rw [List.flatMap_cons, List.flatMap_cons]
    obtain ⟨a, h1, h2⟩ := h k (by simp)
    obtain ⟨b, h3, h4⟩ := ih fun k hk => h k (by simp [hk])
    exact ⟨a ++ b, h1.append h3, List.rel_append h2 h4⟩

theorem merge_maps {l l' : List Position} (h : l.Perm l') {c : Str} (hc : ∀ p ∈ l, p.cur = c)
    {m m' : AMap (Option CostKey) Position} 
    (h3 : ∀ k, m.get k = combine (AMap.get ([] : AMap (Option CostKey) Position) k) (l.filter fun p => positionKey p = k))
    (h3' : ∀ k, m'.get k = combine (AMap.get ([] : AMap (Option CostKey) Position) k) (l'.filter fun p => positionKey p = k)) :
    (∀ k, Option.Rel SamePosition (m.get k) (m'.get k)) ∧ ∀ k, k ∈ m.keys ↔ k ∈ m'.keys := by
  have hrel : ∀ k, Option.Rel SamePosition (m.get k) (m'.get k) := by
    intro k
    rw [h3, h3']
    refine combine_rel (h.filter _) (k := k) (c := c) (fun p hp => ?_) fun p hp => hc p (List.mem_of_mem_filter hp)
    simpa using List.of_mem_filter hp
  refine ⟨hrel, fun k => ?_⟩
  rw [AMap.mem_keys_iff, AMap.mem_keys_iff]
  have := hrel k
  cases hm : m.get k <;> cases hm' : m'.get k <;> rw [hm, hm'] at this <;> simp
  all_goals cases this

theorem visit_merge_perm {l l' : List Position} (h : l.Perm l') {c : Str} (hc : ∀ p ∈ l, p.cur = c) :
    PermRel SamePosition (scaOf .merge l).visit (scaOf .merge l').visit := by
  obtain ⟨m, h1, h2, h3⟩ := merge_fold l [] AMap.WF_nil
  obtain ⟨m', h1', h2', h3'⟩ := merge_fold l' [] AMap.WF_nil
  have e : scaOf .merge l = .merge m := h1
  have e' : scaOf .merge l' = .merge m' := h1'
  obtain ⟨hrel, hk⟩ := merge_maps h hc h3 h3'
  rw [e, e']
  simp only [Sca.visit]
  refine ⟨(sortBy compareCostKeys m.keys).filterMap m'.get, ?_, forall₂_filterMap _ fun k _ => hrel k⟩
  refine List.Perm.filterMap _ ?_
  exact (sortBy_perm _).trans (((List.perm_ext_iff_of_nodup h2 h2').2 hk).trans (sortBy_perm _).symm)

theorem visit_merge_rel {l l' : List Position} (h : l.Perm l') {c : Str} (hc : ∀ p ∈ l, p.cur = c) (hu : UniformKeys l) :
    List.Forall₂ SamePosition (scaOf .merge l).visit (scaOf .merge l').visit := by
  obtain ⟨m, h1, h2, h3⟩ := merge_fold l [] AMap.WF_nil
  obtain ⟨m', h1', h2', h3'⟩ := merge_fold l' [] AMap.WF_nil
  have e : scaOf .merge l = .merge m := h1
  have e' : scaOf .merge l' = .merge m' := h1'
  obtain ⟨hrel, hk⟩ := merge_maps h hc h3 h3'
  rw [e, e']
  simp only [Sca.visit]
  have hs : sortBy compareCostKeys m.keys = sortBy compareCostKeys m'.keys := by
    rw [sortBy_congr (keys_uniform hu h3), sortBy_congr (keys_uniform (hu.sub fun p hp => h.symm.subset hp) h3')]
    exact sortBy_eq_of_mem_iff fineCostKeys_total h2 h2' hk
  rw [hs]
  exact forall₂_filterMap _ fun k _ => hrel k

theorem visit_append_perm {l l' : List Position} (h : l.Perm l') {c : Str} (hc : ∀ p ∈ l, p.cur = c) :
    (scaOf .append l).visit.Perm (scaOf .append l').visit := by
  have e : scaOf .append l = _ := append_fold l none []
  have e' : scaOf .append l' = _ := append_fold l' none []
  rw [e, e']
  simp only [Sca.visit, List.nil_append]
  refine List.Perm.append ?_ (h.filter _)
  have hp := h.filter (fun p => p.cost.isNone)
  have hn : ∀ p ∈ l.filter (fun p => p.cost.isNone), p.cost = none ∧ p.cur = c := fun p hp => by
    have := List.mem_filter.1 hp
    exact ⟨by simpa using this.2, hc p this.1⟩
  revert hp hn
  generalize l.filter (fun p => p.cost.isNone) = a
  generalize l'.filter (fun p => p.cost.isNone) = b
  intro hp hn
  have : combine none a = combine none b := by
    cases a with
    | nil => rw [hp.symm.eq_nil]
    | cons p a =>
      cases b with
      | nil => simpa using hp.length_eq
      | cons q b =>
        rw [combine_cons, combine_cons]
        have h1 := hn p (by simp)
        have h2 := hn q (hp.symm.subset (by simp))
        have h3 := Dec.sum_perm (hp.map (·.units))
        rw [h3, h1.1, h1.2, h2.1, h2.2]
  rw [this]

theorem curs_perm {l l' : List Position} (h : l.Perm l') :
    sortBy cmpStr (l.map (·.cur)).dedup = sortBy cmpStr (l'.map (·.cur)).dedup := by
  refine sortBy_eq_of_mem_iff cmpStr_total (List.nodup_dedup _) (List.nodup_dedup _) fun c => ?_
  rw [List.mem_dedup, List.mem_dedup, (h.map _).mem_iff]

theorem positionsOf_merge_rel {l l' : List Position} (h : l.Perm l') (hu : UniformKeys l) :
    List.Forall₂ SamePosition (positionsOf .merge l) (positionsOf .merge l') := by
  unfold positionsOf
  rw [curs_perm h]
  refine forall₂_flatMap _ fun c _ => forall₂_filter ?_ fun p q hpq => by rw [hpq.1]
  exact visit_merge_rel (h.filter _) (c := c) (fun p hp => by simpa using List.of_mem_filter hp)
    (hu.sub fun p hp => List.mem_of_mem_filter hp)

theorem positionsOf_merge_perm {l l' : List Position} (h : l.Perm l') :
    PermRel SamePosition (positionsOf .merge l) (positionsOf .merge l') := by
  unfold positionsOf
  rw [curs_perm h]
  refine permRel_flatMap _ fun c _ => permRel_filter ?_ fun p q hpq => by rw [hpq.1]
  exact visit_merge_perm (h.filter _) (c := c) fun p hp => by simpa using List.of_mem_filter hp

theorem positionsOf_append_perm {l l' : List Position} (h : l.Perm l') :
    (positionsOf .append l).Perm (positionsOf .append l') := by
  unfold positionsOf
  rw [curs_perm h]
  refine List.Perm.flatMap_left _ fun c _ => List.Perm.filter _ ?_
  exact visit_append_perm (h.filter _) (c := c) fun p hp => by simpa using List.of_mem_filter hp

theorem onAccount_perm {ps ps' : List Booked.Posting} (h : ps.Perm ps') (acc : Str) :
    (onAccount ps acc).Perm (onAccount ps' acc) := (h.filter _).map _

theorem build_keys {ps ps' : List Booked.Posting} {booking : Str → Booking} {inv inv' : AMap Str (List Position)}
    (hp : ps.Perm ps') (h : buildInventory ps booking = some inv) (h' : buildInventory ps' booking = some inv') (acc : Str) :
    acc ∈ inv.keys → acc ∈ inv'.keys := by
  rw [AMap.mem_keys_iff, AMap.mem_keys_iff]
  rintro ⟨l, hl⟩
  obtain ⟨h1, r, hr, rfl⟩ := build_positions h hl
  have h2 := build_getD h' acc
  rw [hr] at h2
  simp only [Option.map_some, Option.getD_some] at h2
  cases hg : inv'.get acc with
  | some l' => exact ⟨l', rfl⟩
  | none =>
    rw [hg] at h2
    exfalso
    refine h1 ?_
    rw [← List.length_eq_zero_iff]
    have h3 : (positionsOf r (onAccount ps' acc)).length = 0 := by rw [← h2]; rfl
    rw [← h3]
    cases r with
    | merge => exact (positionsOf_merge_perm (onAccount_perm hp acc)).length_eq
    | append => exact (positionsOf_append_perm (onAccount_perm hp acc)).length_eq

end Clj

/-- C31, partial: for two arrangements of the same postings the inventories have the same accounts; an account with a
merging method has the same positions, with equal units and, as numbers, equal costs per unit, and in the same order if no
cost per unit of the account occurs both with and without decimal places. An account with the method `none` has the same positions up
to their order. What is missing: the total of the cost of a merged position is that of the first posting, and positions which have the
same cost with and without decimal places may come in either order. -/
theorem C31_order_partial (ps ps' : List Booked.Posting) (hp : ps.Perm ps') (booking : Str → Booking)
    (inv : AMap Str (List Position)) (h : buildInventory ps booking = some inv) :
    ∃ inv', buildInventory ps' booking = some inv' ∧ inv'.keys = inv.keys ∧
      (∀ acc, booking acc ≠ .none →
        (∃ l, l.Perm ((inv'.get acc).getD []) ∧
          List.Forall₂ (fun p q => p.units = q.units ∧ p.cur = q.cur ∧ SameCost p.cost q.cost) ((inv.get acc).getD []) l) ∧
        (UniformCosts ps acc →
          List.Forall₂ (fun p q => p.units = q.units ∧ p.cur = q.cur ∧ SameCost p.cost q.cost)
            ((inv.get acc).getD []) ((inv'.get acc).getD []))) ∧
      ∀ acc, booking acc = .none → ((inv.get acc).getD []).Perm ((inv'.get acc).getD []) := by
  obtain ⟨inv', h'⟩ := (C29_defined ps' booking).2 fun p hp' =>
    (C29_defined ps booking).1 ⟨inv, h⟩ p (hp.symm.subset hp')
  refine ⟨inv', h', ?_, fun acc ha => ?_, fun acc ha => ?_⟩
  · refine strict_unique cmpStr_total ?_ ?_ fun acc => ⟨build_keys hp.symm h' h acc, build_keys hp h h' acc⟩
    · exact (build_keys_sorted h').imp fun h => cmpStr_lt.2 h
    · exact (build_keys_sorted h).imp fun h => cmpStr_lt.2 h
  · rw [build_getD h, build_getD h']
    cases hr : bookingRule (booking acc) with
    | none => exact ⟨⟨[], .refl _, .nil⟩, fun _ => .nil⟩
    | some r =>
      have : r = .merge := by cases hb' : booking acc <;> simp_all [bookingRule]
      subst this
      exact ⟨positionsOf_merge_perm (onAccount_perm hp acc),
        fun hu => positionsOf_merge_rel (onAccount_perm hp acc) (uniformKeys_of hu)⟩
  · rw [build_getD h, build_getD h', ha]
    exact positionsOf_append_perm (onAccount_perm hp acc)

/-- C31: the order of positions with the same cost depends on the order of the postings. -/
theorem C31_order_depends : ∃ a b : Position, a.units ≠ b.units ∧
    (∃ inv, buildInventory Ex.sold (fun _ => .strict) = some inv ∧ inv.get Ex.bank = some [a, b]) ∧
    (∃ inv, buildInventory Ex.sold.reverse (fun _ => .strict) = some inv ∧ inv.get Ex.bank = some [b, a]) :=
  ⟨positionOf Ex.sold[0], positionOf Ex.sold[1], by decide +kernel,
    ⟨[(Ex.bank, Ex.sold.map positionOf)], by decide +kernel, by decide +kernel⟩,
    ⟨[(Ex.bank, (Ex.sold.map positionOf).reverse)], by decide +kernel, by decide +kernel⟩⟩

/-- Two purchases of the same lot. -/
def Ex.twoBuys : List Booked.Posting :=
  [{ acc := Ex.bank, units := ⟨5, 0⟩, cur := Ex.usd, cost := some ⟨⟨2024, 1, 2⟩, ⟨15, 1⟩, ⟨75, 1⟩, Ex.nzd, none, false⟩ },
   { acc := Ex.bank, units := ⟨2, 0⟩, cur := Ex.usd, cost := some ⟨⟨2024, 1, 2⟩, ⟨15, 1⟩, ⟨3, 0⟩, Ex.nzd, none, false⟩ }]

/-- C31: the total cost of a merged position depends on the order of the postings, and in neither order is it the cost of the
position: 7 units at 1.5 are shown with the total 7.5 or 3. -/
theorem C31_total_depends :
    (∃ inv, buildInventory Ex.twoBuys (fun _ => .strict) = some inv ∧
      inv.get Ex.bank = some [⟨⟨7, 0⟩, Ex.usd, some ⟨⟨2024, 1, 2⟩, ⟨15, 1⟩, ⟨75, 1⟩, Ex.nzd, none, false⟩⟩]) ∧
    (∃ inv, buildInventory Ex.twoBuys.reverse (fun _ => .strict) = some inv ∧
      inv.get Ex.bank = some [⟨⟨7, 0⟩, Ex.usd, some ⟨⟨2024, 1, 2⟩, ⟨15, 1⟩, ⟨3, 0⟩, Ex.nzd, none, false⟩⟩]) :=
  ⟨⟨_, rfl, by decide +kernel⟩, ⟨_, rfl, by decide +kernel⟩⟩

end Limabean
