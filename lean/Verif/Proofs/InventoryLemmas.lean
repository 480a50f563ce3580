/-
What the inventory functions compute, as functions of the lists of positions.
-/
import Verif.Clj.Inventory
import Verif.Props.C48
import Mathlib.Data.List.Dedup

namespace Limabean
namespace Clj

theorem Dec_zero_add (a : Dec) : Dec.zero.add a = a := by
  cases a; simp [Dec.zero, Dec.add]

/-- Positions combined into one: the first, with the units of all. -/
def combine (o : Option Position) (l : List Position) : Option Position :=
  l.foldl (fun o p => some (match o with
    | some p0 => { p0 with units := p0.units.add p.units }
    | none => p)) o

theorem combine_some (p : Position) (l : List Position) :
    combine (some p) l = some { p with units := (l.map (·.units)).foldl Dec.add p.units } := by
  induction l generalizing p with
  | nil => rfl
  | cons q l ih =>
    simp only [combine, List.foldl_cons] at ih ⊢
    rw [ih]
    rfl

theorem combine_cons (p : Position) (l : List Position) :
    combine none (p :: l) = some { p with units := Dec.sum ((p :: l).map (·.units)) } := by
  have := combine_some p l
  simp only [combine, List.foldl_cons] at this ⊢
  rw [this]
  simp [Dec.sum, Dec_zero_add]

theorem updateOrSet_get {K V : Type} [DecidableEq K] (m : AMap K V) (k k' : K) (f : V → V) (v : V) :
    (updateOrSet m k f v).get k' = if k' = k then some (match m.get k with | some v0 => f v0 | none => v) else m.get k' := by
  unfold updateOrSet
  cases h : m.get k <;> simp only [AMap.get_set] <;> by_cases e : k = k' <;> simp [e, eq_comm (a := k') (b := k)]

theorem updateOrSet_WF {K V : Type} [DecidableEq K] {m : AMap K V} (h : m.WF) (k : K) (f : V → V) (v : V) :
    (updateOrSet m k f v).WF := by
  unfold updateOrSet
  split <;> exact AMap.WF_set h _ _

theorem merge_fold (l : List Position) (m0 : AMap (Option CostKey) Position) (h0 : m0.WF) :
    ∃ m : AMap (Option CostKey) Position, l.foldl Sca.accumulate (.merge m0) = .merge m ∧ m.WF ∧
      ∀ k, m.get k = combine (m0.get k) (l.filter fun p => positionKey p = k) := by
  induction l generalizing m0 with
  | nil => exact ⟨m0, rfl, h0, fun k => rfl⟩
  | cons p l ih =>
    obtain ⟨m, h1, h2, h3⟩ := ih (updateOrSet m0 (positionKey p) (fun p0 => { p0 with units := p0.units.add p.units }) p)
      (updateOrSet_WF h0 _ _ _)
    refine ⟨m, h1, h2, fun k => ?_⟩
    rw [h3, updateOrSet_get]
    by_cases hk : k = positionKey p
    · subst hk
      simp only [if_true, decide_true, List.filter_cons_of_pos]
      simp only [combine, List.foldl_cons]
      congr 1
      cases m0.get (positionKey p) <;> rfl
    · rw [if_neg hk, List.filter_cons_of_neg (by simpa using fun h => hk h.symm)]

theorem append_fold (l : List Position) (s : Option Position) (a : List Position) :
    l.foldl Sca.accumulate (.append s a) =
      .append (combine s (l.filter fun p => p.cost.isNone)) (a ++ l.filter fun p => p.cost.isSome) := by
  induction l generalizing s a with
  | nil => simp [combine]
  | cons p l ih =>
    simp only [List.foldl_cons, Sca.accumulate]
    cases hc : p.cost with
    | some c =>
      simp only [Option.isSome_some, if_true]
      rw [ih]
      simp [hc]
    | none =>
      simp only [Option.isSome_none, Bool.false_eq_true, if_false]
      cases s <;> simp only <;> rw [ih] <;> simp [hc, combine]

/-- The accumulator of a list of positions in one currency. -/
def scaOf (r : Rule) (l : List Position) : Sca := l.foldl Sca.accumulate (.init r)

theorem inv_fold (l : List Position) (inv : Inv) (h0 : inv.scas.WF) :
    (l.foldl Inv.accumulate inv).rule = inv.rule ∧ (l.foldl Inv.accumulate inv).scas.WF ∧
    ∀ cur, (l.foldl Inv.accumulate inv).scas.get cur =
      match l.filter (fun p => p.cur = cur) with
      | [] => inv.scas.get cur
      | ps => some (ps.foldl Sca.accumulate ((inv.scas.get cur).getD (.init inv.rule))) := by
  induction l generalizing inv with
  | nil => exact ⟨rfl, h0, fun _ => rfl⟩
  | cons p l ih =>
    obtain ⟨h1, h2, h3⟩ := ih (inv.accumulate p) (AMap.WF_set h0 _ _)
    refine ⟨h1, h2, fun cur => ?_⟩
    rw [List.foldl_cons, h3]
    by_cases hc : p.cur = cur
    · rw [List.filter_cons_of_pos (by simpa using hc)]
      simp only [Inv.accumulate, AMap.get_set, hc, if_true]
      cases l.filter (fun p => p.cur = cur) <;> simp
    · rw [List.filter_cons_of_neg (by simpa using hc)]
      simp only [Inv.accumulate]
      rw [AMap.get_set_ne _ (by exact hc)]

/-- The positions of an account, computed from its postings. -/
def positionsOf (r : Rule) (l : List Position) : List Position :=
  (sortBy cmpStr (l.map (·.cur)).dedup).flatMap fun cur =>
    (scaOf r (l.filter fun p => p.cur = cur)).visit.filter fun p => !p.units.isZero

theorem positions_fold (r : Rule) (l : List Position) :
    (l.foldl Inv.accumulate { rule := r }).positions = positionsOf r l := by
  obtain ⟨h1, h2, h3⟩ := inv_fold l { rule := r } (by exact AMap.WF_nil)
  unfold Inv.positions positionsOf
  have hk : sortBy cmpStr (l.foldl Inv.accumulate { rule := r }).scas.keys = sortBy cmpStr (l.map (·.cur)).dedup := by
    refine sortBy_eq_of_mem_iff cmpStr_total h2 (List.nodup_dedup _) fun c => ?_
    rw [AMap.mem_keys_iff, List.mem_dedup, List.mem_map]
    simp only [h3]
    cases hf : l.filter (fun p => p.cur = c) with
    | nil =>
      rw [List.filter_eq_nil_iff] at hf
      constructor
      · rintro ⟨v, hv⟩; simp [AMap.get] at hv
      · rintro ⟨p, hp, rfl⟩; exact absurd (by simp) (hf p hp)
    | cons p ps =>
      have : p ∈ l.filter (fun p => p.cur = c) := by rw [hf]; simp
      rw [List.mem_filter] at this
      exact ⟨fun _ => ⟨p, this.1, by simpa using this.2⟩, fun _ => ⟨_, rfl⟩⟩
  rw [hk]
  refine List.flatMap_congr fun c hc => ?_
  rw [mem_sortBy, List.mem_dedup, List.mem_map] at hc
  obtain ⟨q, hq, rfl⟩ := hc
  rw [h3]
  cases hf : l.filter (fun p => p.cur = q.cur) with
  | nil =>
    rw [List.filter_eq_nil_iff] at hf
    exact absurd (by simp) (hf q hq)
  | cons p ps => simp [scaOf, AMap.get]

/-- The postings of an account, as positions. -/
def onAccount (ps : List Booked.Posting) (acc : Str) : List Position :=
  (ps.filter fun p => p.acc = acc).map positionOf

theorem cumulate_get {booking : Str → Booking} {ps : List Booked.Posting} {m m' : AMap Str Inv} (hm : m.WF)
    (h : cumulate booking ps m = some m') :
    m'.WF ∧ ∀ acc, m'.get acc = match onAccount ps acc with
      | [] => m.get acc
      | l => (lookupOrNew booking m acc).map fun inv =>
          l.foldl Inv.accumulate inv := by
  induction ps generalizing m with
  | nil => cases h; exact ⟨hm, fun _ => rfl⟩
  | cons p ps ih =>
    simp only [cumulate] at h
    split at h
    · cases h
    · rename_i inv hinv
      obtain ⟨h1, h2⟩ := ih (AMap.WF_set hm _ _) h
      refine ⟨h1, fun acc => ?_⟩
      rw [h2]
      by_cases ha : p.acc = acc
      · subst ha
        simp only [onAccount, decide_true, List.filter_cons_of_pos, List.map_cons]
        simp only [lookupOrNew, AMap.get_set, if_true] at hinv ⊢
        rw [hinv]
        cases List.map positionOf (List.filter (fun q => decide (q.acc = p.acc)) ps) <;> simp
      · simp only [onAccount]
        rw [List.filter_cons_of_neg (by simpa using ha)]
        simp only [lookupOrNew, AMap.get_set_ne _ ha]

theorem cumulate_none {booking : Str → Booking} {ps : List Booked.Posting} {m : AMap Str Inv} :
    cumulate booking ps m = none ↔ ∃ p ∈ ps, m.get p.acc = none ∧ booking p.acc = .average := by
  induction ps generalizing m with
  | nil => simp [cumulate]
  | cons p ps ih =>
    have hb : ∀ b, accumulator b = none ↔ b = .average := by intro b; cases b <;> simp [accumulator, bookingRule]
    simp only [cumulate]
    split
    · rename_i hinv
      unfold lookupOrNew at hinv
      cases hg : m.get p.acc with
      | some inv => rw [hg] at hinv; cases hinv
      | none =>
        rw [hg] at hinv
        simp only [true_iff]
        exact ⟨p, by simp, hg, (hb _).1 hinv⟩
    · rename_i inv hinv
      rw [ih]
      constructor
      · rintro ⟨q, hq, h1, h2⟩
        rw [AMap.get_set] at h1
        split at h1
        · cases h1
        · exact ⟨q, by simp [hq], h1, h2⟩
      · rintro ⟨q, hq, h1, h2⟩
        by_cases he : q.acc = p.acc
        · rw [he] at h1 h2
          unfold lookupOrNew at hinv
          rw [h1] at hinv
          simp only at hinv
          rw [(hb _).2 h2] at hinv
          cases hinv
        · rcases List.mem_cons.1 hq with rfl | hq
          · exact absurd rfl he
          · refine ⟨q, hq, ?_, h2⟩
            rw [AMap.get_set_ne _ (fun h => he h.symm)]
            exact h1

theorem nonEmpty_get {m : AMap Str Inv} (hm : m.WF) (acc : Str) :
    (nonEmpty m).get acc = match ((m.get acc).map Inv.positions).getD [] with
      | [] => none
      | ps => some ps := by
  have hn : (nonEmpty m).WF := by
    show ((nonEmpty m).map Prod.fst).Nodup
    unfold nonEmpty
    rw [List.map_filterMap]
    have : ((sortBy cmpStr m.keys).filterMap fun acc => Option.map Prod.fst
        (let ps := ((m.get acc).map Inv.positions).getD []
         if ps.isEmpty then none else some (acc, ps))) = (sortBy cmpStr m.keys).filter fun acc =>
        !(((m.get acc).map Inv.positions).getD []).isEmpty := by
      rw [← List.filterMap_eq_filter]
      refine List.filterMap_congr fun a _ => ?_
      cases h : (((m.get a).map Inv.positions).getD []).isEmpty <;> simp [Option.guard, h]
    rw [this]
    exact List.Nodup.filter _ ((sortBy_perm _).nodup_iff.2 hm)
  cases hp : ((m.get acc).map Inv.positions).getD [] with
  | nil =>
    rw [AMap.get_eq_none_iff]
    intro hk
    rw [AMap.mem_keys_iff] at hk
    obtain ⟨v, hv⟩ := hk
    have := AMap.mem_of_get hv
    unfold nonEmpty at this
    rw [List.mem_filterMap] at this
    obtain ⟨a, ha, h⟩ := this
    simp only at h
    split at h
    · cases h
    · rename_i hne
      simp only [Option.some.injEq, Prod.mk.injEq] at h
      obtain ⟨rfl, rfl⟩ := h
      rw [hp] at hne
      exact hne rfl
  | cons x xs =>
    refine AMap.get_of_mem hn ?_
    unfold nonEmpty
    rw [List.mem_filterMap]
    refine ⟨acc, ?_, by simp [hp]⟩
    rw [mem_sortBy, AMap.mem_keys_iff]
    cases hg : m.get acc with
    | none => rw [hg] at hp; cases hp
    | some inv => exact ⟨inv, rfl⟩

/-- The inventory of an account, computed from its postings. -/
theorem build_get {ps : List Booked.Posting} {booking : Str → Booking} {inv : AMap Str (List Position)}
    (h : buildInventory ps booking = some inv) (acc : Str) :
    inv.get acc = (if onAccount ps acc = [] then none else
      match (bookingRule (booking acc)).map fun r => positionsOf r (onAccount ps acc) with
      | some (x :: xs) => some (x :: xs)
      | _ => none) := by
  unfold buildInventory at h
  rw [Option.map_eq_some_iff] at h
  obtain ⟨m, h1, rfl⟩ := h
  obtain ⟨h2, h3⟩ := cumulate_get AMap.WF_nil h1
  rw [nonEmpty_get h2, h3]
  cases hl : onAccount ps acc with
  | nil => simp [AMap.get]
  | cons p l =>
    simp only [lookupOrNew, AMap.get, accumulator]
    cases hr : bookingRule (booking acc) with
    | none => simp
    | some r =>
      simp only [Option.map_some, positions_fold, Option.getD_some, reduceCtorEq, if_false]
      cases positionsOf r (p :: l) <;> rfl

theorem build_getD {ps : List Booked.Posting} {booking : Str → Booking} {inv : AMap Str (List Position)}
    (h : buildInventory ps booking = some inv) (acc : Str) :
    (inv.get acc).getD [] = ((bookingRule (booking acc)).map fun r => positionsOf r (onAccount ps acc)).getD [] := by
  rw [build_get h]
  by_cases hl : onAccount ps acc = []
  · rw [if_pos hl, hl]
    cases bookingRule (booking acc) with
    | none => rfl
    | some r => rfl
  · rw [if_neg hl]
    cases hr : bookingRule (booking acc) with
    | none => rfl
    | some r =>
      simp only [Option.map_some, Option.getD_some]
      generalize positionsOf r (onAccount ps acc) = l
      cases l <;> rfl

end Clj
end Limabean
