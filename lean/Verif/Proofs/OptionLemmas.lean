/-
Lemmas for C118: the map of options, entry by entry.
-/
import Verif.Spec.Options
import Verif.Proofs.BeansLemmas
import Verif.Proofs.LoadLemmas
import Verif.Props.C61
import Verif.Props.C70

namespace Limabean

open Spec Clj

/-! ### Entries of an object -/

theorem AMap.get_app {V : Type} (a b : List (Str × V)) (k : Str) : AMap.get (a ++ b) k = (AMap.get a k).or (AMap.get b k) := by
  induction a with
  | nil => rfl
  | cons p a ih =>
    obtain ⟨k', v⟩ := p
    simp only [List.cons_append, AMap.get]
    split
    · rfl
    · exact ih

theorem AMap.get_entry {α : Type} (k k' : Str) (x : Option α) (f : α → Json) :
    AMap.get (Json.entry k x f) k' = if k = k' then x.map f else none := by
  cases x with
  | none => simp [Json.entry]
  | some a => simp [Json.entry, AMap.get]

/-- What the client reads under a name is what was sent under it. -/
theorem decoded_field {ord : List Data → List Data} {l : List (Str × Json)} {l' : List (Str × Data)}
    (h : Json.all (fun p => (field ord p.1 p.2).map (p.1, ·)) l = some l') (k : Str) :
    AMap.get l' k = (AMap.get l k).bind (field ord k) := by
  induction l generalizing l' with
  | nil => cases h; rfl
  | cons p l ih =>
    obtain ⟨k', j⟩ := p
    simp only [Json.all] at h
    cases h1 : field ord k' j <;> cases h2 : Json.all (fun p => (field ord p.1 p.2).map (p.1, ·)) l <;>
      simp only [h1, h2, Option.map_none, Option.map_some, reduceCtorEq, Option.some.injEq] at h
    subst h
    simp only [AMap.get]
    split
    · rename_i e
      subst e
      rw [Option.bind_some, h1]
    · exact ih h2

/-! ### Tolerances -/

theorem lastDefault_snoc (l : List (Option Str × Dec)) (p : Option Str × Dec) (c : Option Str) :
    lastDefault (l ++ [p]) c = if p.1 = c then some p.2 else lastDefault l c := by
  unfold lastDefault
  rw [List.filter_append]
  by_cases h : p.1 = c <;> simp [h]

theorem toleranceFallback_eq (t : Tolerance) : Wire.toleranceFallback t = lastDefault t.defaults none := by
  unfold Wire.toleranceFallback
  generalize t.defaults = l
  induction l using List.reverseRecOn with
  | nil => rfl
  | append_singleton l p ih =>
    rw [List.foldl_append, List.foldl_cons, List.foldl_nil, lastDefault_snoc, ih]
    obtain ⟨c, d⟩ := p
    cases c <;> simp

theorem tolerancesByCurrency_get (t : Tolerance) (c : Str) : AMap.get (Wire.tolerancesByCurrency t) c = lastDefault t.defaults (some c) := by
  unfold Wire.tolerancesByCurrency
  generalize t.defaults = l
  induction l using List.reverseRecOn with
  | nil => rfl
  | append_singleton l p ih =>
    rw [List.foldl_append, List.foldl_cons, List.foldl_nil, lastDefault_snoc]
    obtain ⟨x, d⟩ := p
    cases x with
    | none => simpa using ih
    | some x =>
      dsimp only
      rw [AMap.get_set, ih]
      simp

theorem tolerancesByCurrency_wf (t : Tolerance) : AMap.WF (Wire.tolerancesByCurrency t) := by
  unfold Wire.tolerancesByCurrency
  generalize t.defaults = l
  induction l using List.reverseRecOn with
  | nil => exact List.nodup_nil
  | append_singleton l p ih =>
    rw [List.foldl_append, List.foldl_cons, List.foldl_nil]
    obtain ⟨x, d⟩ := p
    cases x with
    | none => exact ih
    | some x => exact AMap.WF_set ih x d

/-- The two names of entries whose values become keywords; in small letters, so no currency is called so. -/
theorem field_anyNum {ord : List Data → List Data} {k : Str} (h : k ≠ str% "dct" ∧ k ≠ str% "booking") (d : Dec) :
    field ord k (.num d) = some (.num d) := by
  unfold field
  rw [decode_num, Option.bind_some]
  unfold convEntry
  by_cases e : k = str% "date"
  · rw [if_pos e]
  · rw [if_neg e, if_neg (by rintro (e | e); exacts [h.1 e, h.2 e])]

/-- The map of tolerances by currency which the client reads. -/
theorem field_tolerances {ord : List Data → List Data} {k : Str} (hk : k ≠ str% "date" ∧ k ≠ str% "dct" ∧ k ≠ str% "booking")
    {l : List (Str × Dec)} (hw : AMap.WF l) (hl : ∀ p ∈ l, p.1 ≠ str% "dct" ∧ p.1 ≠ str% "booking") :
    field ord k (.obj (l.map fun p => (p.1, .num p.2))) = some (.map (l.map fun p => (p.1, .num p.2))) := by
  rw [field_plain hk, decode_obj]
  · rw [show Json.all (fun p => (field ord p.1 p.2).map (p.1, ·)) (l.map fun p => (p.1, Json.num p.2)) = some (l.map fun p => (p.1, Data.num p.2)) from ?_]
    · rfl
    · rw [all_map_left, ← all_some_map]
      exact all_congr fun p hp => by rw [field_anyNum (hl p hp)]; rfl
  · rw [List.map_map]
    exact hw

theorem get_nums (l : List (Str × Dec)) (c : Str) : AMap.get (l.map fun p => (p.1, Data.num p.2)) c = (AMap.get l c).map .num := by
  induction l with
  | nil => rfl
  | cons p l ih =>
    obtain ⟨k, d⟩ := p
    simp only [List.map_cons, AMap.get]
    split
    · rfl
    · exact ih

theorem field_bool {ord : List Data → List Data} {k : Str} (h : k ≠ str% "date" ∧ k ≠ str% "dct" ∧ k ≠ str% "booking") (b : Bool) :
    field ord k (.bool b) = some (.bool b) := by rw [field_plain h, decode_bool]

theorem field_method {ord : List Data → List Data} {k : Str} (h : k ≠ str% "date" ∧ k ≠ str% "dct" ∧ k ≠ str% "booking") (b : Booking) :
    field ord k (Wire.encBooking b) = some (.str (bookingName b)) := by cases b <;> exact field_str h _

theorem field_texts {ord : List Data → List Data} {k : Str} (h : k ≠ str% "date" ∧ k ≠ str% "dct" ∧ k ≠ str% "booking")
    (hk : isSetKey (some k) = false) (l : List Str) : field ord k (.arr (l.map .str)) = some (.vec (l.map .str)) := by
  rw [field_plain h]
  exact decode_list hk fun s _ => decode_str none s

/-! ### The options, one by one -/

theorem shown_bind {α : Type} {x : Option α} {f : α → Json} {g : α → Data} {k : Json → Option Data} (h : ∀ a, k (f a) = some (g a)) :
    ((x.map f).bind k).getD .nil = orNil x g := by
  cases x with
  | none => rfl
  | some a => simp [orNil, h]

theorem showsAll_bind {ord : List Data → List Data} {H : Convert.Hashes} (hH : FairHashes H) {k : Str}
    (h : k ≠ str% "date" ∧ k ≠ str% "dct" ∧ k ≠ str% "booking") (hk : isSetKey (some k) = false) (l : List Str) :
    ShowsAll l ((((if (H.set l.dedup).isEmpty then none else some (H.set l.dedup)).map fun l => Json.arr (l.map .str)).bind (field ord k)).getD .nil) := by
  have hp := hH.set l.dedup
  by_cases hl : l = []
  · subst hl
    have e : H.set [] = [] := by simpa using hp
    refine ⟨fun _ => by simp [e], fun h => absurd rfl h⟩
  · refine ⟨fun h => absurd h hl, fun _ => ⟨H.set l.dedup, ?_, hp.nodup_iff.2 (List.nodup_dedup l), fun t => by rw [hp.mem_iff, List.mem_dedup]⟩⟩
    have hne : (H.set l.dedup).isEmpty = false := by
      rw [Bool.eq_false_iff, ne_eq, List.isEmpty_iff]
      intro e
      rw [e] at hp
      have := hp.symm.eq_nil
      rw [List.dedup_eq_nil] at this
      exact hl this
    rw [hne]
    simp only [Bool.false_eq_true, if_false, Option.map_some, Option.bind_some]
    rw [field_texts h hk]
    rfl

theorem options_shown {ord : List Data → List Data} {H : Convert.Hashes} (hH : FairHashes H) (o : Lima.Options)
    (hc : ∀ p ∈ o.inferredToleranceDefaults, p.1 ≠ some (str% "dct") ∧ p.1 ≠ some (str% "booking")) {key : Option Str} {x : Data}
    (hx : decode ord key (Wire.encOptions (Convert.options H o)) = some x) : ShowsOptions o x := by
  have hnd := optionEntries_nodup (o := Convert.options H o) (fun x hx => (Convert.otherOptions_mem _ hx).1) (Convert.otherOptions_nodup H o)
  rw [Wire.encOptions, decode_obj ord key hnd] at hx
  obtain ⟨l, hl, rfl⟩ := Option.map_eq_some_iff.1 hx
  have hg : ∀ k, (Data.map l).get k = ((AMap.get (Wire.optionEntries (Convert.options H o)) k).bind (field ord k)).getD .nil := fun k => by
    rw [Data.get, decoded_field hl]
  have hkeys := all_entry_keys hl
  constructor
  case only =>
    intro k hk
    have hm : k ∈ l.map Prod.fst := by
      simp only [Data.has] at hk
      obtain ⟨v, hv⟩ := Option.isSome_iff_exists.1 hk
      exact List.mem_map.2 ⟨_, AMap.mem_of_get hv, rfl⟩
    rw [hkeys] at hm
    have := (optionEntries_keys _).subset hm
    rw [List.mem_append] at this
    rcases this with this | this
    · revert this
      generalize k = k
      intro h
      simp only [List.mem_cons, List.not_mem_nil, or_false] at h
      rcases h with rfl | rfl | rfl | rfl | rfl | rfl | rfl | rfl | rfl | rfl | rfl <;> decide
    · obtain ⟨y, hy, rfl⟩ := List.mem_map.1 this
      have h := (Convert.otherOptions_mem _ hy).1
      revert h
      generalize y.1 = k
      intro h
      simp only [otherOptionNames, List.mem_cons, List.not_mem_nil, or_false] at h
      rcases h with rfl | rfl | rfl | rfl | rfl | rfl | rfl | rfl | rfl | rfl | rfl | rfl <;> decide
  case toleranceOf =>
    intro c
    have hw := tolerancesByCurrency_wf (Convert.options H o).tolerance
    have hn : ∀ p ∈ Wire.tolerancesByCurrency (Convert.options H o).tolerance, p.1 ≠ str% "dct" ∧ p.1 ≠ str% "booking" := by
      intro p hp
      have h := tolerancesByCurrency_get (Convert.options H o).tolerance p.1
      rw [AMap.get_of_mem hw hp] at h
      unfold lastDefault at h
      obtain ⟨q, hq, -⟩ := Option.map_eq_some_iff.1 h.symm
      have hq := List.mem_of_getLast? hq
      rw [List.mem_filter] at hq
      have e : q.1 = some p.1 := by simpa using hq.2
      have := hc q hq.1
      rw [e] at this
      exact ⟨fun e => this.1 (by rw [e]), fun e => this.2 (by rw [e])⟩
    have hd : lastDefault o.inferredToleranceDefaults (some c) = AMap.get (Wire.tolerancesByCurrency (Convert.options H o).tolerance) c :=
      (tolerancesByCurrency_get (Convert.options H o).tolerance c).symm
    rw [hg, hd]
    have he : AMap.get (Wire.optionEntries (Convert.options H o)) (str% "inferred-tolerance-default") =
        (if (Wire.tolerancesByCurrency (Convert.options H o).tolerance).isEmpty then none
          else some (Wire.tolerancesByCurrency (Convert.options H o).tolerance)).map fun l => Json.obj (l.map fun p => (p.1, .num p.2)) := by
      simp [Wire.optionEntries, Convert.options, Convert.otherOptions, AMap.get_app, AMap.get_entry, AMap.get]
    rw [he]
    generalize Wire.tolerancesByCurrency (Convert.options H o).tolerance = t at hw hn
    cases t with
    | nil => rfl
    | cons p t =>
      simp only [List.isEmpty_cons, Bool.false_eq_true, if_false, Option.map_some, Option.bind_some]
      rw [field_tolerances (by decide) hw hn, Option.getD_some, Data.get, get_nums]
      cases AMap.get (p :: t) c <;> rfl
  all_goals
    rw [hg]
    simp [Wire.optionEntries, Convert.options, Convert.otherOptions, AMap.get_app, AMap.get_entry, AMap.get]
  case toleranceElse => rw [toleranceFallback_eq]; exact shown_bind fun a => field_num (by decide) _
  case multiplier => exact shown_bind fun a => field_num (by decide) _
  case documents => simpa using showsAll_bind (ord := ord) hH (k := str% "documents") (by decide) (by decide) o.documents
  case operatingCurrency => simpa using showsAll_bind (ord := ord) hH (k := str% "operating-currency") (by decide) (by decide) o.operatingCurrency
  all_goals first
    | (rw [field_str (by decide)]; rfl)
    | exact shown_bind fun a => field_str (by decide) _
    | exact shown_bind fun a => field_bool (by decide) _
    | exact shown_bind fun a => field_method (by decide) _

/-! ### Loading keeps them -/

variable {E : Ext} {L : BookLib}

theorem later_stages_keep (F : Front E L) {f : Stage E} (hf : f ∈ (stages F).drop 1) {m m' : LoadedBeans E} (h : f m = .ok m') :
    m'.options = m.options := by
  simp only [stages, List.drop_succ_cons, List.drop_zero, List.mem_cons, List.not_mem_nil, or_false] at hf
  rcases hf with rfl | rfl | rfl | rfl | rfl | rfl
  · unfold getRawDirectives at h
    split at h
    · cases h
    · split at h <;> cases h; rfl
  · unfold runPluginsStage at h
    dsimp only at h
    split at h
    · cases h; rfl
    · split at h <;> cases h <;> rfl
  · unfold bookRawDirectives at h
    dsimp only at h
    split at h
    · cases h; rfl
    · split at h <;> cases h <;> rfl
  · unfold runPluginsStage at h
    dsimp only at h
    split at h
    · cases h; rfl
    · split at h <;> cases h <;> rfl
  · cases h; rfl
  · unfold setRegistry at h
    split at h <;> cases h; rfl

theorem bindAll_keeps {fs : List (Stage E)} (hfs : ∀ f ∈ fs, ∀ m m', f m = .ok m' → m'.options = m.options) {m m' : LoadedBeans E}
    (h : bindAll m fs = .ok m') : m'.options = m.options := by
  induction fs generalizing m with
  | nil => cases h; rfl
  | cons f fs ih =>
    rw [bindAll] at h
    split at h
    · exact ih (fun g hg => hfs g (List.mem_cons_of_mem _ hg)) h
    · cases hm : f m with
      | error pod => rw [hm] at h; cases h
      | ok m1 =>
        rw [hm] at h
        rw [ih (fun g hg => hfs g (List.mem_cons_of_mem _ hg)) h, hfs f List.mem_cons_self m m1 hm]

theorem loaded_options (F : Front E L) (ho : IsMapOrder F.ordm) (hs : IsOrder F.ord) (src : E.Sources) {p : Parsed} (hp : OptionsOk p.options)
    {m : LoadedBeans E} (h : loadBeanfile F (.ready src (.ok p)) = .ok m) :
    decode F.ord (some (str% "result")) (Wire.encOptions p.options) = some m.options := by
  obtain ⟨x, hx, hopt⟩ := options_ok F ho hs (n := 2) (by omega) src hp
  unfold loadBeanfile at h
  rw [start_ready F ho] at h
  dsimp only at h
  cases hb : bindAll { pod := ready 1 src (.ok p) } (stages F) with
  | error pod => rw [hb] at h; cases h
  | ok m1 =>
    rw [hb] at h
    cases h
    rw [stages, bindAll, if_neg (by simp)] at hb
    unfold getPluginsAndOptions at hb
    rw [plugins_ok F ho (n := 1) (by omega)] at hb
    simp only [Data.truthy, if_true, hopt] at hb
    have := bindAll_keeps (fun f hf m m' h => later_stages_keep F hf h) (show bindAll _ ((stages F).drop 1) = .ok m from hb)
    rw [this, hx]

end Limabean
