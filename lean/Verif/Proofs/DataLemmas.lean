/-
Decoding JSON into Clojure data, entry by entry.
-/
import Verif.Spec.ClientData
import Verif.Proofs.WireLemmas
import Verif.Props.C27

namespace Limabean
namespace Clj

open Spec

/-- What `convert-values` does with one entry of a map. -/
def convEntry (k : Str) (x : Data) : Option Data :=
  if k = str% "date" then
    match x with
    | .str s => (Wire.parseDate s).map .date
    | x => some x
  else if k = str% "dct" ∨ k = str% "booking" then some x.keyword
  else some x

/-- The value of an entry. -/
def field (ord : List Data → List Data) (k : Str) (j : Json) : Option Data := (decode ord (some k) j).bind (convEntry k)

theorem map_same {α : Type} {f : α → α} {l : List α} (h : ∀ a ∈ l, f a = a) : l.map f = l := by
  rw [List.map_congr_left h, List.map_id']

theorem set_nodup {m : AMap Str Data} (h : m.WF) {k : Str} {x : Data} (hg : AMap.get m k = some x) (v : Data) :
    AMap.set m k v = m.map fun p => if p.1 = k then (k, v) else p := by
  induction m with
  | nil => cases hg
  | cons p m ih =>
    obtain ⟨k', v'⟩ := p
    simp only [AMap.WF, AMap.keys, List.map_cons, List.nodup_cons] at h
    by_cases e : k' = k
    · subst e
      simp only [AMap.set, if_true, List.map_cons]
      congr 1
      symm
      refine map_same ?_
      rintro p hp
      rw [if_neg]
      rintro rfl
      exact h.1 (List.mem_map.2 ⟨p, hp, rfl⟩)
    · simp only [AMap.set, e, if_false, List.map_cons]
      rw [ih h.2 (by simpa [AMap.get, e] using hg)]

theorem convertKeyword_eq {m : AMap Str Data} (h : m.WF) (k : Str) :
    convertKeyword k m = m.map fun p => if p.1 = k then (p.1, p.2.keyword) else p := by
  unfold convertKeyword
  cases hg : AMap.get m k with
  | none =>
    symm
    refine map_same ?_
    intro p hp
    rw [if_neg]
    rintro rfl
    rw [AMap.get_eq_none_iff] at hg
    exact hg (List.mem_map.2 ⟨p, hp, rfl⟩)
  | some x =>
    simp only
    rw [set_nodup h hg]
    refine List.map_congr_left fun p hp => ?_
    by_cases e : p.1 = k
    · have : p.2 = x := by
        have := AMap.get_of_mem h hp
        rw [e, hg] at this
        exact (Option.some.inj this).symm
      simp [e, this]
    · simp [e]

theorem all_map_eq {α β γ : Type} (f : α → Option β) (g : β → γ) (l : List α) :
    (Json.all f l).map (fun r => r.map g) = Json.all (fun a => (f a).map g) l := by
  induction l with
  | nil => rfl
  | cons a l ih =>
    simp only [Json.all]
    rw [← ih]
    cases f a <;> cases Json.all f l <;> rfl

theorem all_congr {α β : Type} {f g : α → Option β} {l : List α} (h : ∀ a ∈ l, f a = g a) : Json.all f l = Json.all g l := by
  induction l with
  | nil => rfl
  | cons a l ih =>
    simp only [Json.all]
    rw [h a (by simp), ih fun a ha => h a (by simp [ha])]

theorem all_some {α : Type} (l : List α) : Json.all some l = some l := by
  induction l with
  | nil => rfl
  | cons a l ih => simp [Json.all, ih]

theorem all_some_map {α β : Type} (g : α → β) (l : List α) : Json.all (fun a => some (g a)) l = some (l.map g) := by
  induction l with
  | nil => rfl
  | cons a l ih => simp [Json.all, ih]

theorem convertDate_eq {m : AMap Str Data} (h : m.WF) :
    convertDate m = Json.all (fun p => if p.1 = str% "date" then (convEntry p.1 p.2).map (p.1, ·) else some p) m := by
  unfold convertDate
  have key : ∀ {x}, AMap.get m (str% "date") = some x → ∀ p ∈ m, p.1 = str% "date" → p.2 = x := by
    intro x hx p hp e
    have := AMap.get_of_mem h hp
    rw [e, hx] at this
    exact (Option.some.inj this).symm
  split
  · rename_i s hg
    cases hp : Wire.parseDate s with
    | some d =>
      rw [Option.map_some, set_nodup h hg, ← all_some_map]
      refine all_congr fun p hp' => ?_
      by_cases e : p.1 = str% "date"
      · simp [e, key hg p hp' e, convEntry, hp]
      · simp [e]
    | none =>
      rw [Option.map_none]
      symm
      have hm := AMap.mem_of_get hg
      clear key hg h
      induction m with
      | nil => simp at hm
      | cons p m ih =>
        simp only [Json.all]
        rcases List.mem_cons.1 hm with rfl | hm
        · simp [convEntry, hp]
        · rw [ih hm]
          split <;> simp_all
  · rename_i hg
    refine (all_some m).symm.trans (all_congr fun p hp => ?_)
    by_cases e : p.1 = str% "date"
    · rw [if_pos e]
      obtain ⟨k, x⟩ := p
      simp only at e
      subst e
      have := AMap.get_of_mem h hp
      cases x with
      | str s => exact absurd this (by intro h'; exact hg s h')
      | _ => rfl
    · rw [if_neg e]

theorem WF_all {f : Str × Data → Option (Str × Data)} (hf : ∀ p q, f p = some q → q.1 = p.1) {m m' : AMap Str Data} (h : m.WF)
    (he : Json.all f m = some m') : AMap.WF m' := by
  have : AMap.keys m' = AMap.keys m := by
    clear h
    induction m generalizing m' with
    | nil => cases he; rfl
    | cons p m ih =>
      simp only [Json.all] at he
      split at he
      · rename_i b bs h1 h2
        cases he
        simp only [AMap.keys, List.map_cons]
        rw [hf _ _ h1]
        congr 1
        exact ih h2
      · cases he
  unfold AMap.WF
  rw [this]
  exact h

theorem convertMap_eq {m : AMap Str Data} (h : m.WF) :
    convertMap m = (Json.all (fun p => (convEntry p.1 p.2).map (p.1, ·)) m).map .map := by
  unfold convertMap
  rw [convertDate_eq h]
  have hw : ∀ m', Json.all (fun p => if p.1 = str% "date" then (convEntry p.1 p.2).map (p.1, ·) else some p) m = some m' →
      AMap.WF m' := by
    intro m' he
    refine WF_all ?_ h he
    intro p q
    split
    · intro hq
      rw [Option.map_eq_some_iff] at hq
      obtain ⟨_, _, rfl⟩ := hq
      rfl
    · rintro ⟨⟩; rfl
  have hk : ∀ m' : AMap Str Data, m'.WF → convertKeyword (str% "booking") (convertKeyword (str% "dct") m') =
      m'.map fun p => if p.1 = str% "dct" ∨ p.1 = str% "booking" then (p.1, p.2.keyword) else p := by
    intro m' hm'
    have h1 : AMap.WF (m'.map fun p => if p.1 = str% "dct" then (p.1, p.2.keyword) else p) := by
      have : AMap.keys (m'.map fun p => if p.1 = str% "dct" then (p.1, p.2.keyword) else p) = AMap.keys m' := by
        unfold AMap.keys
        rw [List.map_map]
        refine List.map_congr_left fun p _ => ?_
        simp only [Function.comp]
        split <;> rfl
      unfold AMap.WF
      rw [this]
      exact hm'
    rw [convertKeyword_eq hm', convertKeyword_eq h1, List.map_map]
    refine List.map_congr_left fun p _ => ?_
    obtain ⟨k, x⟩ := p
    simp only [Function.comp]
    by_cases e : k = str% "dct"
    · simp [e]
    · by_cases e' : k = str% "booking" <;> simp [e, e']
  rw [show (Json.all (fun p => (convEntry p.1 p.2).map (p.1, ·)) m) =
    (Json.all (fun p => if p.1 = str% "date" then (convEntry p.1 p.2).map (p.1, ·) else some p) m).map (fun r => r.map
      fun p => if p.1 = str% "dct" ∨ p.1 = str% "booking" then (p.1, p.2.keyword) else p) from ?_]
  · cases he : Json.all (fun p => if p.1 = str% "date" then (convEntry p.1 p.2).map (p.1, ·) else some p) m with
    | none => rfl
    | some m' => simp only [Option.map_some]; rw [hk m' (hw m' he)]
  · rw [all_map_eq]
    refine all_congr fun p _ => ?_
    obtain ⟨k, x⟩ := p
    by_cases e : k = str% "date"
    · subst e
      simp only [if_true]
      cases convEntry (str% "date") x <;> simp
    · simp only [e, if_false, convEntry, Option.map_some]
      by_cases e' : k = str% "dct" ∨ k = str% "booking" <;> simp [e']

theorem ofEntries_keys (ord : List Data → List Data) (l : List (Str × Json)) : AMap.keys (ofEntries ord l) = l.map Prod.fst := by
  induction l with
  | nil => rfl
  | cons p l ih =>
    obtain ⟨k, j⟩ := p
    simp only [ofEntries, AMap.keys, List.map_cons] at ih ⊢
    rw [ih]

theorem collect_nodup {l : List (Str × Data)} (h : AMap.WF l) : collect l = l := by
  unfold collect
  have : ∀ (a l : AMap Str Data), AMap.WF (a ++ l) → l.foldl (fun m p => AMap.set m p.1 p.2) a = a ++ l := by
    intro a l
    induction l generalizing a with
    | nil => simp
    | cons p l ih =>
      intro hw
      rw [List.foldl_cons]
      have hset : AMap.set a p.1 p.2 = a ++ [p] := by
        have hn : p.1 ∉ AMap.keys a := by
          unfold AMap.WF AMap.keys at hw
          rw [List.map_append, List.nodup_append] at hw
          intro hp
          exact hw.2.2 _ hp _ (by simp) rfl
        clear ih hw
        induction a with
        | nil => rfl
        | cons q a iha =>
          obtain ⟨k, v⟩ := q
          simp only [AMap.keys, List.map_cons, List.mem_cons, not_or] at hn
          simp only [AMap.set, Ne.symm hn.1, if_false, List.cons_append]
          rw [iha hn.2]
      rw [hset, ih _ (by simpa using hw)]
      simp
  simpa using this [] l (by simpa using h)

theorem convertEntries_eq (l : List (Str × Data)) :
    convertEntries l = Json.all (fun p => (convertValues p.2).map (p.1, ·)) l := by
  induction l with
  | nil => rfl
  | cons p l ih =>
    obtain ⟨k, x⟩ := p
    simp only [convertEntries, Json.all, ih]
    cases convertValues x <;> cases Json.all (fun p : Str × Data => (convertValues p.2).map (p.1, ·)) l <;> rfl

theorem ofEntries_eq (ord : List Data → List Data) (l : List (Str × Json)) :
    ofEntries ord l = l.map fun p => (p.1, ofJson ord (some p.1) p.2) := by
  induction l with
  | nil => rfl
  | cons p l ih => obtain ⟨k, j⟩ := p; simp only [ofEntries, List.map_cons, ih]

theorem ofJsons_eq (ord : List Data → List Data) (l : List Json) : ofJsons ord l = l.map (ofJson ord none) := by
  induction l with
  | nil => rfl
  | cons j l ih => simp only [ofJsons, List.map_cons, ih]

theorem convertAll_eq (l : List Data) : convertAll l = Json.all convertValues l := by
  induction l with
  | nil => rfl
  | cons x l ih =>
    simp only [convertAll, Json.all, ih]
    cases convertValues x <;> cases Json.all convertValues l <;> rfl

theorem all_map_left {α β γ : Type} (f : β → Option γ) (g : α → β) (l : List α) : Json.all f (l.map g) = Json.all (fun a => f (g a)) l := by
  induction l with
  | nil => rfl
  | cons a l ih => simp only [List.map_cons, Json.all, ih]

theorem all_bind {α β γ : Type} (f : α → Option β) (g : β → Option γ) (l : List α) :
    (Json.all f l).bind (Json.all g) = Json.all (fun a => (f a).bind g) l := by
  induction l with
  | nil => rfl
  | cons a l ih =>
    simp only [Json.all]
    rw [← ih]
    cases h : f a with
    | none => simp
    | some b =>
      cases h' : Json.all f l with
      | none => simp
      | some bs => simp [Json.all]

/-- An object with distinct keys is decoded entry by entry. -/
theorem decode_obj (ord : List Data → List Data) (key : Option Str) {l : List (Str × Json)} (h : (l.map Prod.fst).Nodup) :
    decode ord key (.obj l) = (Json.all (fun p => (field ord p.1 p.2).map (p.1, ·)) l).map .map := by
  have hw : AMap.WF (ofEntries ord l) := by
    unfold AMap.WF
    rw [ofEntries_keys]
    exact h
  unfold decode
  rw [ofJson, convertValues, collect_nodup hw, convertEntries_eq]
  have h2 : ∀ m', Json.all (fun p => (convertValues p.2).map (p.1, ·)) (ofEntries ord l) = some m' → AMap.WF m' := by
    intro m' he
    refine WF_all ?_ hw he
    intro p q hq
    rw [Option.map_eq_some_iff] at hq
    obtain ⟨_, _, rfl⟩ := hq
    rfl
  rw [show (Json.all (fun p => (field ord p.1 p.2).map (p.1, ·)) l) =
    (Json.all (fun p => (convertValues p.2).map (p.1, ·)) (ofEntries ord l)).bind
      (Json.all (fun p => (convEntry p.1 p.2).map (p.1, ·))) from ?_]
  · cases he : Json.all (fun p => (convertValues p.2).map (p.1, ·)) (ofEntries ord l) with
    | none => rfl
    | some m' =>
      simp only [Option.bind_some]
      exact convertMap_eq (h2 m' he)
  · rw [all_bind, ofEntries_eq, all_map_left]
    refine all_congr fun p _ => ?_
    simp only [field, decode]
    cases convertValues (ofJson ord (some p.1) p.2) <;> rfl

end Clj
end Limabean
