/-
What reports read of the data which the front end has loaded.
-/
import Verif.Clj.Beans
import Verif.Props.C42
import Verif.Proofs.DecodeLemmas

namespace Limabean

open Spec Clj

namespace Spec

/-- An optional string. -/
def optStr (x : Option Str) : Data := (x.map Data.str).getD .nil

/-- The map holds what a row of a report shows or selects by. -/
structure IsRow (x : Data) (r : Row) : Prop where
  date : x.get (str% "date") = .date r.date
  payee : x.get (str% "payee") = optStr r.payee
  narration : x.get (str% "narration") = optStr r.narration
  flag : x.get (str% "flag") = optStr r.posting.flag
  acc : x.get (str% "acc") = .str r.posting.acc
  units : x.get (str% "units") = .num r.posting.units
  cur : x.get (str% "cur") = .str r.posting.cur
  cost : x.get (str% "cost") = (r.posting.cost.map ofCost).getD .nil

end Spec

namespace Clj

/-- A map without duplicate keys. -/
def MapWF : Data → Prop
  | .map l => AMap.WF l
  | _ => False

theorem MapWF.isMap {m : Data} (h : MapWF m) : Spec.IsMap m := by cases m <;> trivial

theorem MapWF.assoc {m : Data} (h : MapWF m) (k : Str) (v : Data) : MapWF (m.assoc k v) := by
  cases m <;> try cases h
  exact AMap.WF_set h k v

theorem selectKeys_spec (m : Data) (ks : List Str) (a : Data) (ha : MapWF a) :
    MapWF (ks.foldl (copyField m) a) ∧ ∀ k, (ks.foldl (copyField m) a).get k = if k ∈ ks ∧ m.has k = true then m.get k else a.get k := by
  induction ks generalizing a with
  | nil => exact ⟨ha, fun k => by simp⟩
  | cons k₀ ks ih =>
    have hw : MapWF (copyField m a k₀) := by
      unfold copyField
      split
      · exact ha.assoc _ _
      · exact ha
    refine ⟨(ih _ hw).1, fun k => ?_⟩
    rw [List.foldl_cons, (ih _ hw).2, get_copyField ha.isMap]
    by_cases h1 : k ∈ ks <;> by_cases h2 : k = k₀ <;> cases h3 : m.has k <;> subst_vars <;> simp_all

theorem get_of_not_has {m : Data} {k : Str} (h : m.has k = false) : m.get k = .nil := by
  cases m with
  | map l =>
    simp only [Data.has, Data.get] at *
    cases hg : AMap.get l k with
    | none => rfl
    | some v => rw [hg] at h; cases h
  | _ => rfl

theorem get_selectKeys (m : Data) (ks : List Str) (k : Str) : (m.selectKeys ks).get k = if k ∈ ks then m.get k else .nil := by
  rw [Data.selectKeys, (selectKeys_spec m ks (.map []) (by simp [MapWF, AMap.WF, AMap.keys])).2]
  by_cases h1 : k ∈ ks
  · cases h2 : m.has k with
    | true => simp [h1]
    | false =>
      rw [get_of_not_has h2]
      simp [Data.get, AMap.get]
  · simp [h1, Data.get]

theorem selectKeys_wf (m : Data) (ks : List Str) : MapWF (m.selectKeys ks) :=
  (selectKeys_spec m ks (.map []) (by simp [MapWF, AMap.WF, AMap.keys])).1

theorem mergeMap_spec {m : Data} (h : MapWF m) (m' : Data) :
    MapWF (m.mergeMap m') ∧ ∀ k, (m.mergeMap m').get k = if m'.has k = true then m'.get k else m.get k := by
  cases m' with
  | map l =>
    unfold Data.mergeMap
    dsimp only
    induction l with
    | nil => exact ⟨h, fun k => by simp [Data.has]⟩
    | cons p l ih =>
      obtain ⟨k₀, v⟩ := p
      rw [List.foldr_cons]
      refine ⟨ih.1.assoc _ _, fun k => ?_⟩
      rw [get_assoc ih.1.isMap, ih.2]
      by_cases e : k = k₀
      · subst e
        simp [Data.has, Data.get, AMap.get]
      · have e' : ¬ k₀ = k := fun h => e h.symm
        simp only [Data.has, AMap.get, e, e', if_false]
        rw [show (Data.map ((k₀, v) :: l)).get k = (Data.map l).get k by simp [Data.get, AMap.get, e']]
        rfl
  | _ => exact ⟨h, fun k => by simp [Data.mergeMap, Data.has]⟩

theorem get_dissoc {m : Data} (h : MapWF m) (k k' : Str) : (m.dissoc k).get k' = if k' = k then .nil else m.get k' := by
  cases m <;> try cases h
  simp only [Data.dissoc, Data.get, AMap.get_del h, eq_comm (a := k')]
  split <;> rfl

/-! ### The fields of what the server sends -/

theorem bookedPosting_get (ord : List Data → List Data) (p : Booked.Posting) :
    (ofBookedPosting ord p).get (str% "flag") = optStr p.flag ∧ (ofBookedPosting ord p).get (str% "acc") = .str p.acc ∧
    (ofBookedPosting ord p).get (str% "units") = .num p.units ∧ (ofBookedPosting ord p).get (str% "cur") = .str p.cur ∧
    (ofBookedPosting ord p).get (str% "cost") = (p.cost.map ofCost).getD .nil ∧
    (ofBookedPosting ord p).has (str% "date") = false ∧ (ofBookedPosting ord p).has (str% "payee") = false ∧
    (ofBookedPosting ord p).has (str% "narration") = false := by
  refine ⟨?_, ?_, ?_, ?_, ?_, ?_, ?_, ?_⟩ <;>
    simp [ofBookedPosting, Data.get, Data.has, get_append, get_optEntry, AMap.get, optStr]

/-- The data of a directive, in which filters find its fields. -/
theorem fields_booked (ord : List Data → List Data) (d : Booked.Directive) : fieldsOf (ofBooked ord d) = directiveFields d := by
  obtain ⟨idx, date, tags, links, metadata, v⟩ := d
  have hd : (ofBooked ord ⟨idx, date, tags, links, metadata, v⟩).get (str% "date") = .date date := by
    simp [ofBooked, Data.get, get_append, get_optEntry, AMap.get]
  have hk : ∀ k, (k = str% "acc" ∨ k = str% "cur" ∨ k = str% "payee" ∨ k = str% "narration") →
      (ofBooked ord ⟨idx, date, tags, links, metadata, v⟩).get k = (AMap.get (ofBookedVariant ord v) k).getD .nil := by
    rintro k (rfl | rfl | rfl | rfl) <;> simp [ofBooked, Data.get, get_append, get_optEntry, AMap.get]
  unfold fieldsOf
  rw [hd, hk _ (.inl rfl), hk _ (.inr (.inl rfl)), hk _ (.inr (.inr (.inl rfl))), hk _ (.inr (.inr (.inr rfl)))]
  cases v with
  | transaction t =>
    obtain ⟨flag, payee, narration, ps⟩ := t
    cases payee <;> cases narration <;>
      simp [ofBookedVariant, directiveFields, get_append, get_optEntry, AMap.get, Data.str?, Data.date?]
  | _ =>
    simp [ofBookedVariant, ofVariant, directiveFields, get_append, get_optEntry, AMap.get, Data.str?, Data.date?]

theorem optStr_str? (x : Option Str) : (optStr x).str? = x := by cases x <;> rfl

theorem _root_.Limabean.Spec.IsRow.fields {x : Data} {r : Row} (h : IsRow x r) : fieldsOf x = r.fields := by
  unfold fieldsOf Row.fields
  rw [h.date, h.acc, h.cur, h.payee, h.narration, optStr_str?, optStr_str?]
  rfl

theorem costOf_ofCost (c : Booked.Cost) : costOf (ofCost c) = some c := by
  obtain ⟨date, perUnit, total, cur, label, merge⟩ := c
  cases label <;> cases merge <;> rfl

theorem ofCost_ne_nil (c : Booked.Cost) : ∃ l, ofCost c = .map l := ⟨_, rfl⟩

theorem costEntry_row {x : Data} {c : Option Booked.Cost} (h : x.get (str% "cost") = (c.map ofCost).getD .nil) : costEntry x = some c := by
  unfold costEntry
  rw [h]
  cases c with
  | none => rfl
  | some c =>
    have := costOf_ofCost c
    obtain ⟨l, hl⟩ := ofCost_ne_nil c
    simp only [Option.map_some, Option.getD_some]
    rw [hl] at this ⊢
    simp [this]

theorem _root_.Limabean.Spec.IsRow.position {x : Data} {r : Row} (h : IsRow x r) : positionOfMap x = some (positionOf r.posting) := by
  unfold positionOfMap
  rw [h.units, h.cur, costEntry_row h.cost]
  rfl

/-- What inventories read of a row. -/
def barePosting (r : Row) : Booked.Posting :=
  { acc := r.posting.acc, units := r.posting.units, cur := r.posting.cur, cost := r.posting.cost }

theorem _root_.Limabean.Spec.IsRow.accountPosition {x : Data} {r : Row} (h : IsRow x r) : accountPosition x = some (barePosting r) := by
  unfold Clj.accountPosition
  rw [h.acc, h.position]
  rfl

theorem _root_.Limabean.Spec.IsRow.withoutCost {x : Data} {r : Row} (h : IsRow x r) (hw : MapWF x) : IsRow (x.dissoc (str% "cost")) r.withoutCost := by
  constructor <;> rw [get_dissoc hw]
  · exact h.date
  · exact h.payee
  · exact h.narration
  · exact h.flag
  · exact h.acc
  · exact h.units
  · exact h.cur
  · rfl

/-- The inventory depends only on account, units, currency and cost. -/
theorem cumulate_posting (booking : Str → Booking) (rows : List Row) (m : AMap Str Inv) :
    cumulate booking (rows.map barePosting) m = cumulate booking (rows.map Row.posting) m := by
  induction rows generalizing m with
  | nil => rfl
  | cons r rows ih =>
    simp only [List.map_cons, cumulate, show (barePosting r).acc = r.posting.acc from rfl,
      show positionOf (barePosting r) = positionOf r.posting from rfl]
    cases lookupOrNew booking m r.posting.acc with
    | none => rfl
    | some inv => exact ih _

theorem all_rows {xs : List Data} {rows : List Row} (h : List.Forall₂ IsRow xs rows) : Json.all accountPosition xs =
    some (rows.map barePosting) := by
  induction h with
  | nil => rfl
  | cons h _ ih => simp only [Json.all, h.accountPosition, ih, List.map_cons]

theorem filter_forall₂ {α β : Type} {R : α → β → Prop} {f : α → Bool} {g : β → Bool} (hfg : ∀ a b, R a b → f a = g b)
    {l : List α} {l' : List β} (h : List.Forall₂ R l l') : List.Forall₂ R (l.filter f) (l'.filter g) := by
  induction h with
  | nil => exact .nil
  | cons h _ ih =>
    rw [List.filter_cons, List.filter_cons, hfg _ _ h]
    split
    · exact .cons h ih
    · exact ih

theorem selected_rows {xs : List Data} {rows : List Row} {R : Data → Row → Prop} (hR : ∀ x r, R x r → IsRow x r) (h : List.Forall₂ R xs rows)
    (fs : List Filter) : List.Forall₂ R (allOf fieldsOf fs xs) (allOf Row.fields fs rows) := by
  unfold allOf
  split
  · exact h
  · exact filter_forall₂ (fun x r hx => by rw [(hR x r hx).fields]) h

/-! ### Postings -/

/-- The row of a posting. -/
theorem row_of {ord : List Data → List Data} {t : Booked.Transaction} {date : Date} {d pst raw : Data} {p : Booked.Posting}
    (hdate : d.get (str% "date") = .date date) (hpayee : d.get (str% "payee") = optStr t.payee)
    (hnarr : d.get (str% "narration") = optStr t.narration) (hl : Spec.Located (ofBookedPosting ord p) raw pst) :
    IsRow ((d.selectKeys [str% "date", str% "payee", str% "narration"]).mergeMap pst)
      { date := date, payee := t.payee, narration := t.narration, posting := p } ∧
    MapWF ((d.selectKeys [str% "date", str% "payee", str% "narration"]).mergeMap pst) := by
  obtain ⟨h1, h2, h3, h4, h5, h6, h7, h8⟩ := bookedPosting_get ord p
  obtain ⟨hw, hg⟩ := mergeMap_spec (selectKeys_wf d [str% "date", str% "payee", str% "narration"]) pst
  have own : ∀ k, k ∈ [str% "flag", str% "acc", str% "units", str% "cur", str% "cost"] →
      ((d.selectKeys [str% "date", str% "payee", str% "narration"]).mergeMap pst).get k = (ofBookedPosting ord p).get k := by
    intro k hk
    have ho : isOrigin k = false := by
      simp only [List.mem_cons, List.not_mem_nil, or_false] at hk
      rcases hk with rfl | rfl | rfl | rfl | rfl <;> rfl
    have hn : k ∉ [str% "date", str% "payee", str% "narration"] := by
      simp only [List.mem_cons, List.not_mem_nil, or_false] at hk
      rcases hk with rfl | rfl | rfl | rfl | rfl <;> decide
    rw [hg, get_selectKeys, if_neg hn]
    cases hh : pst.has k with
    | true => exact hl.kept k (.inl ho)
    | false =>
      rw [← hl.kept k (.inl ho), get_of_not_has hh]
      rfl
  have parent : ∀ k, k ∈ [str% "date", str% "payee", str% "narration"] → (ofBookedPosting ord p).has k = false →
      ((d.selectKeys [str% "date", str% "payee", str% "narration"]).mergeMap pst).get k = d.get k := by
    intro k hk hh
    have ho : isOrigin k = false := by
      simp only [List.mem_cons, List.not_mem_nil, or_false] at hk
      rcases hk with rfl | rfl | rfl <;> rfl
    rw [hg, hl.entries, hh, ho, get_selectKeys, if_pos hk]
    rfl
  refine ⟨⟨?_, ?_, ?_, ?_, ?_, ?_, ?_, ?_⟩, hw⟩
  · rw [parent _ (by simp) h6, hdate]
  · rw [parent _ (by simp) h7, hpayee]
  · rw [parent _ (by simp) h8, hnarr]
  · rw [own _ (by simp), h1]
  · rw [own _ (by simp), h2]
  · rw [own _ (by simp), h3]
  · rw [own _ (by simp), h4]
  · rw [own _ (by simp), h5]

theorem booked_dct (ord : List Data → List Data) (d : Booked.Directive) (k : Str) (hk : k = str% "txn" ∨ k = str% "open") :
    isKw ((ofBooked ord d).get (str% "dct")) k = match d.variant with
      | .transaction _ => decide (k = str% "txn")
      | .opn _ => decide (k = str% "open")
      | _ => false := by
  have : (ofBooked ord d).get (str% "dct") = (AMap.get (ofBookedVariant ord d.variant) (str% "dct")).getD .nil := by
    simp [ofBooked, Data.get, get_append, get_optEntry, AMap.get]
  rw [this]
  rcases hk with rfl | rfl <;> cases d.variant <;> rfl

/-- What a booked directive keeps when it is resolved. -/
theorem resolved_get {raw b r : Data} (h : Spec.Resolved raw b r) {k : Str} (hk : isOrigin k = false) (hp : k ≠ str% "postings") :
    r.get k = b.get k := h.kept k hp (.inl hk)

/-- The rows of a resolved directive. -/
theorem rows_directive {ord : List Data → List Data} {raw r : Data} (d : Booked.Directive)
    (h : Spec.Resolved raw (ofBooked ord d) r) :
    List.Forall₂ (fun x r => IsRow x r ∧ MapWF x) (postingMaps [r]) (postingRows [d]) := by
  have hdct : isKw (r.get (str% "dct")) (str% "txn") = _ :=
    (congrArg (isKw · (str% "txn")) (resolved_get h (k := str% "dct") rfl (by decide))).trans (booked_dct ord d _ (.inl rfl))
  simp only [postingMaps, postingRows, List.filter_cons, List.filter_nil, hdct, List.flatMap_cons, List.flatMap_nil, List.append_nil]
  cases hv : d.variant with
  | transaction t =>
    obtain ⟨qs, hq, hqs⟩ := h.postings _ (by rw [booked_postings, hv])
    simp only [decide_true, if_true, List.flatMap_cons, List.flatMap_nil, List.append_nil, hq, Data.elems]
    rw [List.forall₂_map_left_iff, List.forall₂_map_right_iff]
    rw [List.forall₂_map_left_iff] at hqs
    refine hqs.flip.imp fun pst p hl => ?_
    have hf := congrArg Fields.payee (fields_booked ord d)
    have hf' := congrArg Fields.narration (fields_booked ord d)
    refine row_of (t := t) ?_ ?_ ?_ hl
    · rw [resolved_get h rfl (by decide)]
      simp [ofBooked, Data.get, get_append, get_optEntry, AMap.get]
    · rw [resolved_get h rfl (by decide)]
      simp [ofBooked, ofBookedVariant, hv, Data.get, get_append, get_optEntry, AMap.get, optStr]
    · rw [resolved_get h rfl (by decide)]
      simp [ofBooked, ofBookedVariant, hv, Data.get, get_append, get_optEntry, AMap.get, optStr]
  | _ => exact .nil

theorem postingMaps_cons (r : Data) (rs : List Data) : postingMaps (r :: rs) = postingMaps [r] ++ postingMaps rs := by
  simp only [postingMaps, List.filter_cons, List.filter_nil]
  split <;> simp

theorem postingRows_cons (d : Booked.Directive) (ds : List Booked.Directive) : postingRows (d :: ds) = postingRows [d] ++ postingRows ds := by
  simp [postingRows]

theorem rows_directives {ord : List Data → List Data} {raw : Data} {ds : List Booked.Directive} {rs : List Data}
    (h : List.Forall₂ (Spec.Resolved raw) (ds.map (ofBooked ord)) rs) :
    List.Forall₂ (fun x r => IsRow x r ∧ MapWF x) (postingMaps rs) (postingRows ds) := by
  induction ds generalizing rs with
  | nil => cases h; exact .nil
  | cons d ds ih =>
    cases h with
    | cons h h' =>
      rw [postingMaps_cons, postingRows_cons]
      exact List.rel_append (rows_directive d h) (ih h')

/-! ### The registry -/

theorem methodOf_name (b : Booking) : methodOf (.kw (bookingName b)) = b := by cases b <;> rfl

theorem set_map {V W : Type} (f : V → W) (m : AMap Str V) (k : Str) (v : V) :
    AMap.set (m.map fun x => (x.1, f x.2)) k (f v) = (AMap.set m k v).map fun x => (x.1, f x.2) := by
  induction m with
  | nil => rfl
  | cons p m ih =>
    obtain ⟨k', v'⟩ := p
    simp only [List.map_cons, AMap.set]
    split
    · rfl
    · rw [ih]; rfl

theorem get_map {V W : Type} (f : V → W) (m : AMap Str V) (k : Str) :
    AMap.get (m.map fun x => (x.1, f x.2)) k = (AMap.get m k).map f := by
  induction m with
  | nil => rfl
  | cons p m ih =>
    obtain ⟨k', v'⟩ := p
    simp only [List.map_cons, AMap.get]
    split
    · rfl
    · exact ih

theorem registryAccs_data {ord : List Data → List Data} {raw : Data} {ds : List Booked.Directive} {rs : List Data}
    (h : List.Forall₂ (Spec.Resolved raw) (ds.map (ofBooked ord)) rs) :
    registryAccsOf rs = (registryAccs ds).map fun x => (x.1, .kw (bookingName x.2)) := by
  unfold registryAccsOf registryAccs
  rw [show ([] : AMap Str Data) = ([] : AMap Str Booking).map fun x => (x.1, Data.kw (bookingName x.2)) from rfl]
  generalize ([] : AMap Str Booking) = m
  induction ds generalizing rs m with
  | nil => cases h; rfl
  | cons d ds ih =>
    cases h with
    | @cons _ r _ rs h h' =>
      rw [List.foldl_cons, List.foldl_cons, ← ih h']
      congr 1
      rw [resolved_get h (k := str% "dct") rfl (by decide), booked_dct ord d _ (.inr rfl),
        resolved_get h (k := str% "acc") rfl (by decide), resolved_get h (k := str% "booking") rfl (by decide)]
      cases hv : d.variant with
      | opn o =>
        have hb : (ofBooked ord d).get (str% "booking") = (o.booking.map fun b => Data.kw (bookingName b)).getD .nil := by
          simp [ofBooked, ofBookedVariant, ofVariant, hv, Data.get, get_append, get_optEntry, AMap.get]
        have ha : (ofBooked ord d).get (str% "acc") = .str o.acc := by
          simp [ofBooked, ofBookedVariant, ofVariant, hv, Data.get, get_append, get_optEntry, AMap.get]
        rw [hb, ha]
        cases hbk : o.booking with
        | none =>
          dsimp only
          rw [hbk]
          rfl
        | some b =>
          dsimp only
          rw [hbk]
          simp only [decide_true, Option.map_some, Option.getD_some, Data.truthy, Bool.and_self, if_true, Data.str?]
          exact set_map (fun b => Data.kw (bookingName b)) m o.acc b
      | transaction t =>
        have : (decide (str% "open" = str% "txn")) = false := by decide
        simp only [this, Bool.false_and, Bool.false_eq_true, if_false]
      | _ => rfl

theorem registryFreq_data {ord : List Data → List Data} {raw : Data} {ds : List Booked.Directive} {rs : List Data}
    (h : List.Forall₂ (Spec.Resolved raw) (ds.map (ofBooked ord)) rs) : registryFreqOf rs = registryFreq ds := by
  unfold registryFreqOf registryFreq
  generalize ([] : AMap Str Nat) = m
  induction ds generalizing rs m with
  | nil => cases h; rfl
  | cons d ds ih =>
    cases h with
    | @cons _ r _ rs h h' =>
      rw [List.foldl_cons, List.foldl_cons, ← ih h']
      congr 1
      rw [resolved_get h (k := str% "dct") rfl (by decide), booked_dct ord d _ (.inl rfl)]
      cases hv : d.variant with
      | transaction t =>
        obtain ⟨qs, hq, hqs⟩ := h.postings _ (by rw [booked_postings, hv])
        simp only [decide_true, if_true, hq, Data.elems]
        rw [List.forall₂_map_left_iff] at hqs
        clear ih h hq hv
        generalize t.postings = ps at hqs
        induction hqs generalizing m with
        | nil => rfl
        | @cons p q ps qs hl _ ih =>
          have hc : q.get (str% "cur") = .str p.cur := by rw [hl.kept _ (.inl rfl), (bookedPosting_get ord p).2.2.2.1]
          simp only [List.foldl_cons, hc, Data.str?, Option.getD_some]
          exact ih _
      | opn o =>
        have : (decide (str% "txn" = str% "open")) = false := by decide
        simp only [this, Bool.false_eq_true, if_false]
      | _ => rfl

/-- The booking method which the registry gives for an account. -/
theorem accBooking_data {ord : List Data → List Data} {raw : Data} {ds : List Booked.Directive} {rs : List Data}
    (h : List.Forall₂ (Spec.Resolved raw) (ds.map (ofBooked ord)) rs) (order : AMap Str Nat → AMap Str Nat) {options : Data}
    (ho : options.has (str% "booking") = false) (r : Registry) (hr : r.accs = registryAccs ds) (hd : r.defaultBooking = .strict)
    (acc : Str) : methodOf (accBookingOf (registryOf order rs options) acc) = r.accBooking acc := by
  have h1 : ((registryOf order rs options).get (str% "accs")) =
      .map ((registryAccs ds).map fun x => (x.1, Data.map [(str% "booking", .kw (bookingName x.2))])) := by
    show Data.map _ = _
    rw [registryAccs_data h, List.map_map]
    rfl
  have h2 : (registryOf order rs options).get (str% "default-booking") = .kw (str% "strict") := by
    show (if options.has (str% "booking") then options.get (str% "booking") else .kw (str% "strict")) = _
    rw [ho]
    rfl
  unfold accBookingOf Registry.accBooking
  rw [h1, h2, hr, hd]
  have h3 : (Data.map ((registryAccs ds).map fun x => (x.1, Data.map [(str% "booking", .kw (bookingName x.2))]))).get acc =
      (((registryAccs ds).get acc).map fun b => Data.map [(str% "booking", .kw (bookingName b))]).getD .nil := by
    simp only [Data.get]
    rw [get_map (fun b => Data.map [(str% "booking", .kw (bookingName b))])]
  rw [h3]
  cases (registryAccs ds).get acc with
  | none => rfl
  | some b => exact methodOf_name b

/-! ### Metadata which is lost in between does not matter for reports -/

/-- The row without such metadata. -/
def loseRow (r : Row) : Row := { r with posting := { r.posting with metadata := withoutLost r.posting.metadata } }

theorem postingRows_lost (ds : List Booked.Directive) : postingRows (ds.map withoutLostBooked) = (postingRows ds).map loseRow := by
  induction ds with
  | nil => rfl
  | cons d ds ih =>
    rw [List.map_cons, postingRows_cons, postingRows_cons d, ih, List.map_append]
    congr 1
    obtain ⟨idx, date, tags, links, metadata, v⟩ := d
    cases v <;> simp [postingRows, withoutLostBooked, loseRow]

theorem registryAccs_lost (ds : List Booked.Directive) : registryAccs (ds.map withoutLostBooked) = registryAccs ds := by
  unfold registryAccs
  rw [List.foldl_map]
  congr 1
  funext m d
  obtain ⟨idx, date, tags, links, metadata, v⟩ := d
  cases v <;> rfl

theorem registryFreq_lost (ds : List Booked.Directive) : registryFreq (ds.map withoutLostBooked) = registryFreq ds := by
  unfold registryFreq
  rw [List.foldl_map]
  congr 1
  funext m d
  obtain ⟨idx, date, tags, links, metadata, v⟩ := d
  cases v <;> try rfl
  simp [withoutLostBooked, List.foldl_map]

/-! ### Options -/

theorem entry_keys {α : Type} (k : Str) (x : Option α) (f : α → Json) : ((Json.entry k x f).map Prod.fst).Sublist [k] := by
  cases x with
  | none => exact List.nil_sublist _
  | some a => exact .refl _

theorem optionEntries_keys (o : LedgerOptions) : ((Wire.optionEntries o).map Prod.fst).Sublist
    ([str% "name-assets", str% "name-liabilities", str% "name-equity", str% "name-income", str% "name-expenses",
      str% "inferred-tolerance-default", str% "inferred-tolerance-default-fallback", str% "inferred-tolerance-multiplier",
      str% "infer-tolerance-from-cost", str% "booking-method", str% "plugin-processing-mode"] ++ o.others.map Prod.fst) := by
  unfold Wire.optionEntries
  simp only [List.map_append]
  refine List.Sublist.append ?_ (.refl _)
  exact (((((((List.Sublist.refl _).append (entry_keys _ _ _)).append (entry_keys _ _ _)).append (entry_keys _ _ _)).append
    (entry_keys _ _ _)).append (entry_keys _ _ _)).append (entry_keys _ _ _))

theorem optionEntries_nodup {o : LedgerOptions} (h : OptionsNamed o) (hn : (o.others.map Prod.fst).Nodup) :
    ((Wire.optionEntries o).map Prod.fst).Nodup := by
  refine List.Nodup.sublist (optionEntries_keys o) ?_
  refine List.nodup_append.2 ⟨by decide, hn, ?_⟩
  intro a ha b hb e
  subst e
  obtain ⟨x, hx, rfl⟩ := List.mem_map.1 hb
  have h1 := h x hx
  revert ha h1
  generalize x.1 = k
  intro ha h1
  simp only [List.mem_cons, List.not_mem_nil, or_false] at ha
  rcases ha with rfl | rfl | rfl | rfl | rfl | rfl | rfl | rfl | rfl | rfl | rfl <;> revert h1 <;> decide

theorem all_entry_keys {ord : List Data → List Data} {l : List (Str × Json)} {l' : List (Str × Data)}
    (h : Json.all (fun p => (field ord p.1 p.2).map (p.1, ·)) l = some l') : l'.map Prod.fst = l.map Prod.fst := by
  induction l generalizing l' with
  | nil => cases h; rfl
  | cons p l ih =>
    simp only [Json.all] at h
    cases h1 : field ord p.1 p.2 <;> cases h2 : Json.all (fun p => (field ord p.1 p.2).map (p.1, ·)) l <;>
      simp only [h1, h2, Option.map_none, Option.map_some, reduceCtorEq, Option.some.injEq] at h
    subst h
    rw [List.map_cons, List.map_cons, ih h2]

/-- The names of the kinds of accounts are among the options which the front end has. -/
theorem options_names {ord : List Data → List Data} {key : Option Str} {o : LedgerOptions} {x : Data} (h : OptionsNamed o)
    (hn : (o.others.map Prod.fst).Nodup) (hx : decode ord key (Wire.encOptions o) = some x) :
    x.get (str% "name-assets") = .str o.nameAssets ∧ x.get (str% "name-liabilities") = .str o.nameLiabilities ∧
    x.get (str% "name-income") = .str o.nameIncome ∧ x.get (str% "name-expenses") = .str o.nameExpenses ∧
    x.has (str% "booking") = false := by
  rw [Wire.encOptions, decode_obj ord key (optionEntries_nodup h hn)] at hx
  obtain ⟨l, hl, rfl⟩ := Option.map_eq_some_iff.1 hx
  have hk := all_entry_keys hl
  have hb : str% "booking" ∉ l.map Prod.fst := by
    rw [hk]
    intro hm
    have := (optionEntries_keys o).subset hm
    rw [List.mem_append] at this
    rcases this with this | this
    · revert this; decide
    · obtain ⟨x, hx, e⟩ := List.mem_map.1 this
      have := h x hx
      rw [e] at this
      revert this; decide
  refine ⟨?_, ?_, ?_, ?_, ?_⟩
  rotate_left 4
  · simp only [Data.has]
    cases hg : AMap.get l (str% "booking") with
    | none => rfl
    | some v => exact absurd (List.mem_map.2 ⟨_, AMap.mem_of_get hg, rfl⟩) hb
  all_goals
    simp only [Wire.optionEntries, List.cons_append, Json.all] at hl
    rw [field_str (by decide), field_str (by decide), field_str (by decide), field_str (by decide), field_str (by decide)] at hl
    revert hl
    generalize Json.all _ _ = r
    intro hl
    cases r with
    | none => cases hl
    | some r =>
      cases hl
      rfl

end Clj
end Limabean
