/-
What the server reads of the data of a directive which the client sends.
-/
import Verif.Proofs.EncodeLemmas
import Verif.Proofs.DecodeLemmas
import Verif.Spec.Order

namespace Limabean
namespace Clj

open Json Spec

variable {ord : List Data → List Data} {ordm : List (Str × Json) → List (Str × Json)}

/-- An entry as JSON. -/
def jsonEntry (ordm : List (Str × Json) → List (Str × Json)) (p : Str × Data) : Str × Json := (p.1, toJson ordm p.2)

theorem jsonEntry_opt {α : Type} (k : Str) (x : Option α) (f : α → Data) :
    (optEntry k x f).map (jsonEntry ordm) = entry k x fun a => toJson ordm (f a) := by
  cases x <;> rfl

theorem keys_opt {α : Type} (k : Str) (x : Option α) (f : α → Data) : ((optEntry k x f).map Prod.fst).Sublist [k] := by
  cases x <;> simp [optEntry]

theorem keys_json (l : List (Str × Data)) : (l.map (jsonEntry ordm)).map Prod.fst = l.map Prod.fst := by
  simp [jsonEntry, Function.comp_def]

/-- The fields of a map which is sent. -/
theorem field_sent (ho : IsMapOrder ordm) {l : List (Str × Data)} (h : (l.map Prod.fst).Nodup) :
    Json.field (ordm (entriesToJson ordm l)) = Json.field (l.map (jsonEntry ordm)) := by
  rw [entriesToJson_eq]
  exact field_perm (by rw [keys_json]; exact h) (ho _)

theorem opt_back {α β : Type} {l : List (Str × Json)} {k : Str} {dec : Json → Option β} {x : Option α} {enc : α → Json} {g : α → β}
    (hv : vals k l = (x.map enc).toList) (hd : ∀ a ∈ x, dec (enc a) = some (g a)) (hn : ∀ a, enc a ≠ .null) :
    opt l k dec = some (x.map g) := by
  unfold opt Json.field
  rw [hv]
  cases x with
  | none => rfl
  | some a =>
    have := hn a
    have hd := hd a rfl
    simp only [Option.map_some, Option.toList_some]
    cases he : enc a <;> simp_all

/-- A set which comes back. -/
def setBack (ord : List Data → List Data) (l : List Str) : List Str :=
  (ord (l.map .str)).filterMap fun x => match x with | .str s => some s | _ => none

theorem setBack_perm (ho : IsOrder ord) (l : List Str) : (setBack ord l).Perm l := by
  have := (ho (l.map .str)).filterMap (fun x => match x with | .str s => some s | _ => none)
  refine this.trans ?_
  rw [List.filterMap_map]
  have e : ((fun x => match x with | .str s => some s | _ => none) ∘ Data.str : Str → Option Str) = some := rfl
  rw [e, List.filterMap_some]

theorem setBack_str (ho : IsOrder ord) (l : List Str) : (setBack ord l).map Data.str = ord (l.map .str) := by
  unfold setBack
  have h : ∀ x ∈ ord (l.map .str), ∃ s, x = .str s := by
    intro x hx
    obtain ⟨s, -, rfl⟩ := List.mem_map.1 ((ho _).mem_iff.1 hx)
    exact ⟨s, rfl⟩
  generalize ord (l.map .str) = m at h
  induction m with
  | nil => rfl
  | cons x m ih =>
    obtain ⟨s, rfl⟩ := h x (by simp)
    simp [ih fun x hx => h x (by simp [hx])]

theorem decSet_sent (ho : IsOrder ord) {l : List Str} (h : NamesOk l) :
    Wire.decSet (toJson ordm (ofSet ord l)) = some (setBack ord l) := by
  have e : toJson ordm (ofSet ord l) = Wire.encSet (setBack ord l) := by
    simp only [ofSet, toJson, toJsons_eq, Wire.encSet, ← setBack_str ho, List.map_map]
    congr 1
  rw [e]
  exact Wire.decSet_encSet ⟨(setBack_perm ho l).nodup_iff.2 h.1, fun t ht => h.2 t ((setBack_perm ho l).mem_iff.1 ht)⟩

theorem order_one (ho : IsMapOrder ordm) (x : Str × Json) : ordm [x] = [x] := List.perm_singleton.1 (ho [x])

theorem order_two (ho : IsMapOrder ordm) (x y : Str × Json) : ordm [x, y] = [x, y] ∨ ordm [x, y] = [y, x] := by
  have h := ho [x, y]
  match hl : ordm [x, y], h.length_eq with
  | [a, b], _ =>
    rw [hl] at h
    by_cases e : a = x
    · subst e
      left
      have := (List.perm_cons a).1 h
      rw [List.perm_singleton.1 this]
    · right
      have ha : a = y := by
        have := h.mem_iff.1 (List.mem_cons_self (a := a))
        simpa [e] using this
      subst ha
      have := (List.perm_cons a).1 (h.trans (List.Perm.swap a x []))
      rw [List.perm_singleton.1 this]

theorem decMeta_sent (ho : IsMapOrder ordm) {v : MetaValue} (h : MetaOk v) : Wire.decMeta (toJson ordm (ofMeta v)) = some v := by
  cases v with
  | amount u c =>
    have e : toJson ordm (ofMeta (.amount u c)) = .obj (ordm [(str% "units", .num u), (str% "cur", .str c)]) := rfl
    rw [e]
    have hc : toRef (.str c) = some c := Wire.toRef_str h
    rcases order_two ho (str% "units", Json.num u) (str% "cur", Json.str c) with e | e <;> rw [e] <;> simp [Wire.decMeta, hc, toDec]
  | date d =>
    have e : toJson ordm (ofMeta (.date d)) = .obj (ordm [(str% "date", .str (Wire.fmtDate d))]) := rfl
    rw [e, order_one ho]
    exact Wire.decMeta_encMeta (v := .date d) h
  | null => rfl
  | string s =>
    have e : toJson ordm (ofMeta (.string s)) = .obj (ordm [(str% "string", .str s)]) := rfl
    rw [e, order_one ho]
    exact Wire.decMeta_encMeta (v := .string s) h
  | currency s =>
    have e : toJson ordm (ofMeta (.currency s)) = .obj (ordm [(str% "cur", .str s)]) := rfl
    rw [e, order_one ho]
    exact Wire.decMeta_encMeta (v := .currency s) h
  | account s =>
    have e : toJson ordm (ofMeta (.account s)) = .obj (ordm [(str% "acc", .str s)]) := rfl
    rw [e, order_one ho]
    exact Wire.decMeta_encMeta (v := .account s) h
  | tag s =>
    have e : toJson ordm (ofMeta (.tag s)) = .obj (ordm [(str% "tag", .str s)]) := rfl
    rw [e, order_one ho]
    exact Wire.decMeta_encMeta (v := .tag s) h
  | link s =>
    have e : toJson ordm (ofMeta (.link s)) = .obj (ordm [(str% "link", .str s)]) := rfl
    rw [e, order_one ho]
    exact Wire.decMeta_encMeta (v := .link s) h
  | bool b =>
    have e : toJson ordm (ofMeta (.bool b)) = .obj (ordm [(str% "bool", .bool b)]) := rfl
    rw [e, order_one ho]
    exact Wire.decMeta_encMeta (v := .bool b) h
  | number n =>
    have e : toJson ordm (ofMeta (.number n)) = .obj (ordm [(str% "number", .num n)]) := rfl
    rw [e, order_one ho]
    exact Wire.decMeta_encMeta (v := .number n) h

/-- Metadata which come back. -/
def metaBack (ordm : List (Str × Json) → List (Str × Json)) (l : List (Str × MetaValue)) : List (Str × MetaValue) :=
  (ordm (l.map fun p => (p.1, toJson ordm (ofMeta p.2)))).filterMap fun p => (Wire.decMeta p.2).map fun v => (p.1, v)

theorem metaBack_perm (ho : IsMapOrder ordm) {l : List (Str × MetaValue)} (h : ∀ kv ∈ l, MetaOk kv.2) : (metaBack ordm l).Perm l := by
  refine ((ho _).filterMap _).trans ?_
  rw [List.filterMap_map]
  have : ∀ kv ∈ l, ((fun p : Str × Json => (Wire.decMeta p.2).map fun v => (p.1, v)) ∘
      fun p : Str × MetaValue => (p.1, toJson ordm (ofMeta p.2))) kv = some kv := by
    intro kv hkv
    simp [decMeta_sent ho (h kv hkv)]
  rw [List.filterMap_congr this, List.filterMap_some]

theorem all_of_some {α β : Type} {f : α → Option β} {l : List α} (h : ∀ x ∈ l, (f x).isSome) :
    Json.all f l = some (l.filterMap f) := by
  induction l with
  | nil => rfl
  | cons x l ih =>
    obtain ⟨y, hy⟩ := Option.isSome_iff_exists.1 (h x (by simp))
    simp [Json.all, hy, ih fun x hx => h x (by simp [hx])]

theorem decMetadata_sent (ho : IsMapOrder ordm) {l : List (Str × MetaValue)} (h : EntriesOk l) :
    Wire.decMetadata (toJson ordm (ofMetadata l)) = some (metaBack ordm l) := by
  have e : toJson ordm (ofMetadata l) = .obj (ordm (l.map fun p => (p.1, toJson ordm (ofMeta p.2)))) := by
    simp only [ofMetadata, toJson, entriesToJson_eq, List.map_map]
    rfl
  have hn := inserted_nodup (((metaBack_perm ho fun kv hkv => (h.2 kv hkv).2).map Prod.fst).nodup_iff.2 h.1)
  replace h := h.2
  rw [e]
  rw [← hn]
  unfold Wire.decMetadata toMap metaBack
  have hm : ∀ p ∈ ordm (l.map fun p => (p.1, toJson ordm (ofMeta p.2))), ∃ kv ∈ l, p = (kv.1, toJson ordm (ofMeta kv.2)) := by
    intro p hp
    obtain ⟨kv, hkv, rfl⟩ := List.mem_map.1 ((ho _).mem_iff.1 hp)
    exact ⟨kv, hkv, rfl⟩
  dsimp only
  rw [all_of_some]
  · simp only [Option.map_some]
    congr 2
    refine List.filterMap_congr fun p hp => ?_
    obtain ⟨kv, hkv, rfl⟩ := hm p hp
    simp [Wire.borrowable_iff.2 (h kv hkv).1, decMeta_sent ho (h kv hkv).2]
  · intro p hp
    obtain ⟨kv, hkv, rfl⟩ := hm p hp
    simp [Wire.borrowable_iff.2 (h kv hkv).1, decMeta_sent ho (h kv hkv).2]


theorem nums_eq (d : Dec) : toJson ordm (.num d) = .num d := by simp [toJson]

theorem strs_eq (t : Str) : toJson ordm (.str t) = .str t := by simp [toJson]

theorem kws_eq (t : Str) : toJson ordm (.kw t) = .str t := by simp [toJson]

theorem dates_eq (d : Date) : toJson ordm (.date d) = Wire.encDate d := by simp [toJson, Wire.encDate]

theorem bools_eq (b : Bool) : toJson ordm (.bool b) = .bool b := by simp [toJson]

theorem spans_eq (x : Span) : toJson ordm (ofSpan x) = Wire.encSpan x := by
  simp [ofSpan, toJson, toJsons, Wire.encSpan, ofNat, nat]

theorem sets_ne_null (l : List Str) : toJson ordm (ofSet ord l) ≠ .null := by simp [ofSet, toJson]

theorem metadata_ne_null (l : List (Str × MetaValue)) : toJson ordm (ofMetadata l) ≠ .null := by simp [ofMetadata, toJson]

theorem bookingName_eq (b : Booking) : toJson ordm (.kw (bookingName b)) = Wire.encBooking b := by
  cases b <;> simp [toJson, bookingName, Wire.encBooking]

theorem decCostSpec_congr {l l' : List (Str × Json)} (h : Json.field l = Json.field l') :
    Wire.decCostSpec (.obj l) = Wire.decCostSpec (.obj l') := by
  simp only [Wire.decCostSpec, opt, dfltFalse, h]

theorem decPriceSpec_congr {l l' : List (Str × Json)} (h : Json.field l = Json.field l') :
    Wire.decPriceSpec (.obj l) = Wire.decPriceSpec (.obj l') := by
  simp only [Wire.decPriceSpec, opt, h]

theorem decPrice_congr {l l' : List (Str × Json)} (h : Json.field l = Json.field l') :
    Wire.decPrice (.obj l) = Wire.decPrice (.obj l') := by
  simp only [Wire.decPrice, opt, req, h]

theorem decPosting_congr {l l' : List (Str × Json)} (h : Json.field l = Json.field l') :
    Wire.decPosting (.obj l) = Wire.decPosting (.obj l') := by
  simp only [Wire.decPosting, opt, req, h]

theorem decVariant_congr {l l' : List (Str × Json)} (h : Json.field l = Json.field l') : Wire.decVariant l = Wire.decVariant l' := by
  simp only [Wire.decVariant, opt, req, h]

theorem decDirective_congr {l l' : List (Str × Json)} (h : Json.field l = Json.field l') :
    Wire.decDirective (.obj l) = Wire.decDirective (.obj l') := by
  simp only [Wire.decDirective, opt, req, h, decVariant_congr h]

theorem decCostSpec_sent (ho : IsMapOrder ordm) {c : Raw.CostSpec} (h1 : ∀ x ∈ c.cur, PlainName x) (h2 : ∀ x ∈ c.date, CalendarDate x) :
    Wire.decCostSpec (toJson ordm (ofCostSpec c)) = some c := by
  have hk : (str% "per-unit" :: str% "total" :: str% "cur" :: str% "date" :: str% "label" :: str% "merge" :: ([] : List Str)).Nodup := by
    decide
  unfold ofCostSpec
  rw [toJson, decCostSpec_congr (field_sent ho (hk.sublist (by
    simp only [List.map_append]
    exact (((((keys_opt _ _ _).append (keys_opt _ _ _)).append (keys_opt _ _ _)).append (keys_opt _ _ _)).append (keys_opt _ _ _)).append
      (keys_opt _ _ _))))]
  rw [← Wire.decCostSpec_encCostSpec h1 h2]
  simp only [List.map_append, jsonEntry_opt, Wire.encCostSpec, nums_eq, strs_eq, dates_eq, bools_eq]

theorem decPriceSpec_sent (ho : IsMapOrder ordm) {c : Raw.PriceSpec} (h1 : ∀ x ∈ c.cur, PlainName x) :
    Wire.decPriceSpec (toJson ordm (ofPriceSpec c)) = some c := by
  have hk : (str% "per-unit" :: str% "total" :: str% "cur" :: ([] : List Str)).Nodup := by decide
  unfold ofPriceSpec
  rw [toJson, decPriceSpec_congr (field_sent ho (hk.sublist (by
    simp only [List.map_append]
    exact ((keys_opt _ _ _).append (keys_opt _ _ _)).append (keys_opt _ _ _))))]
  rw [← Wire.decPriceSpec_encPriceSpec h1]
  simp only [List.map_append, jsonEntry_opt, Wire.encPriceSpec, nums_eq, strs_eq]

theorem decPrice_sent (ho : IsMapOrder ordm) {p : Raw.Price} (h : PlainName p.cur) :
    Wire.decPrice (toJson ordm (ofPrice p)) = some p := by
  have hk : (str% "per-unit" :: str% "total" :: str% "cur" :: ([] : List Str)).Nodup := by decide
  unfold ofPrice
  rw [toJson, decPrice_congr (field_sent ho (hk.sublist (by
    simp only [List.map_append, List.map_cons, List.map_nil]
    exact ((List.Sublist.refl [_]).append (keys_opt _ _ _)).append (List.Sublist.refl [_]))))]
  rw [← Wire.decPrice_encPrice h]
  simp only [List.map_append, List.map_cons, List.map_nil, jsonEntry, jsonEntry_opt, Wire.encPrice, nums_eq, strs_eq]

/-- A posting which comes back. -/
def postingBack (ord : List Data → List Data) (ordm : List (Str × Json) → List (Str × Json)) (p : Raw.PostingSpec) : Raw.PostingSpec :=
  { p with tags := p.tags.map (setBack ord), links := p.links.map (setBack ord), metadata := p.metadata.map (metaBack ordm) }

theorem decPosting_sent (hs : IsOrder ord) (ho : IsMapOrder ordm) {p : Raw.PostingSpec} (h : PostingOk p) :
    Wire.decPosting (toJson ordm (ofPosting ord p)) = some (postingBack ord ordm p) := by
  have hk : (str% "span" :: str% "flag" :: str% "acc" :: str% "units" :: str% "cur" :: str% "cost-spec" :: str% "price-spec" ::
      str% "tags" :: str% "links" :: str% "metadata" :: ([] : List Str)).Nodup := by decide
  unfold ofPosting
  rw [toJson, decPosting_congr (field_sent ho (hk.sublist (by
    simp only [List.map_append, List.map_cons, List.map_nil]
    exact (((((((((keys_opt _ _ _).append (keys_opt _ _ _)).append (List.Sublist.refl [_])).append (keys_opt _ _ _)).append
      (keys_opt _ _ _)).append (keys_opt _ _ _)).append (keys_opt _ _ _)).append (keys_opt _ _ _)).append (keys_opt _ _ _)).append
      (keys_opt _ _ _))))]
  unfold Wire.decPosting
  simp only [List.map_append, List.map_cons, List.map_nil, jsonEntry_opt, jsonEntry, nums_eq, strs_eq, spans_eq]
  rw [Wire.opt_of_vals (k := str% "span") (x := p.span) (enc := Wire.encSpan) (by wire_vals) (by simp [Wire.decSpan_encSpan])
      (by simp [Wire.encSpan]),
    Wire.opt_of_vals (k := str% "flag") (x := p.flag) (enc := .str) (by wire_vals) (by simp [toStr]) (by simp),
    Wire.req_of_vals (k := str% "acc") (a := p.acc) (j := .str p.acc) (by wire_vals) (Wire.toRef_str h.acc),
    Wire.opt_of_vals (k := str% "units") (x := p.units) (enc := .num) (by wire_vals) (by simp [toDec]) (by simp),
    Wire.opt_of_vals (k := str% "cur") (x := p.cur) (enc := .str) (by wire_vals) (fun a ha => Wire.toRef_str (h.cur a ha)) (by simp),
    Wire.opt_of_vals (k := str% "cost-spec") (x := p.costSpec) (enc := fun c => toJson ordm (ofCostSpec c)) (by wire_vals)
      (fun a ha => decCostSpec_sent ho (h.cost a ha).1 (h.cost a ha).2) (by simp [ofCostSpec, toJson]),
    Wire.opt_of_vals (k := str% "price-spec") (x := p.priceSpec) (enc := fun c => toJson ordm (ofPriceSpec c)) (by wire_vals)
      (fun a ha => decPriceSpec_sent ho (h.price a ha)) (by simp [ofPriceSpec, toJson]),
    opt_back (k := str% "tags") (x := p.tags) (enc := fun l => toJson ordm (ofSet ord l)) (by wire_vals)
      (fun a ha => decSet_sent hs (h.attached.tags a ha)) sets_ne_null,
    opt_back (k := str% "links") (x := p.links) (enc := fun l => toJson ordm (ofSet ord l)) (by wire_vals)
      (fun a ha => decSet_sent hs (h.attached.links a ha)) sets_ne_null,
    opt_back (k := str% "metadata") (x := p.metadata) (enc := fun l => toJson ordm (ofMetadata l)) (by wire_vals)
      (fun a ha => decMetadata_sent ho (h.attached.metadata a ha)) metadata_ne_null]
  rfl

/-- A variant which comes back. -/
def variantBack (ord : List Data → List Data) (ordm : List (Str × Json) → List (Str × Json)) : Raw.Variant → Raw.Variant
  | .transaction t => .transaction { t with postings := t.postings.map (postingBack ord ordm) }
  | .opn o => .opn { o with currencies := o.currencies.map (setBack ord) }
  | v => v

theorem all_back {α β : Type} (enc : α → Json) (dec : Json → Option β) (g : α → β) (l : List α)
    (h : ∀ b ∈ l, dec (enc b) = some (g b)) : all dec (l.map enc) = some (l.map g) := by
  induction l with
  | nil => rfl
  | cons b l ih =>
    simp [all, h b (by simp), ih fun b hb => h b (by simp [hb])]

theorem decVariant_sent (hs : IsOrder ord) (ho : IsMapOrder ordm) {v : Raw.Variant} (h : Spec.VariantOk v) {pre : List (Str × Json)}
    (hp : ∀ k ∈ [str% "dct", str% "flag", str% "payee", str% "narration", str% "postings", str% "cur", str% "price",
      str% "acc", str% "units", str% "tolerance", str% "currencies", str% "booking", str% "source", str% "path",
      str% "comment", str% "type", str% "description", str% "name", str% "content", str% "values"], vals k pre = []) :
    Wire.decVariant (pre ++ (ofVariant ord v).map (jsonEntry ordm)) = some (variantBack ord ordm v) := by
  cases v with
  | transaction t =>
    simp only [List.mem_cons, List.not_mem_nil, or_false, forall_eq_or_imp, forall_eq] at hp
    obtain ⟨p1, p2, p3, p4, p5, -⟩ := hp
    unfold Wire.decVariant
    simp only [ofVariant, List.map_append, List.map_cons, List.map_nil, jsonEntry_opt, jsonEntry, kws_eq, strs_eq]
    rw [Wire.req_dct (k := str% "txn") (by simp [Wire.vals_append, Wire.vals_cons, Wire.vals_nil, Wire.vals_entry, p1])]
    simp only [↓reduceIte]
    rw [Wire.req_of_vals (k := str% "flag") (a := t.flag) (j := .str t.flag) (by
          simp [Wire.vals_append, Wire.vals_cons, Wire.vals_nil, Wire.vals_entry, p2]) rfl,
      Wire.opt_of_vals (k := str% "payee") (x := t.payee) (enc := .str) (by
          simp [Wire.vals_append, Wire.vals_cons, Wire.vals_nil, Wire.vals_entry, p3]) (by simp [toStr]) (by simp),
      Wire.opt_of_vals (k := str% "narration") (x := t.narration) (enc := .str) (by
          simp [Wire.vals_append, Wire.vals_cons, Wire.vals_nil, Wire.vals_entry, p4]) (by simp [toStr]) (by simp),
      Wire.req_of_vals (k := str% "postings") (a := t.postings.map (postingBack ord ordm))
        (j := .arr (t.postings.map fun p => toJson ordm (ofPosting ord p))) (by
          simp [Wire.vals_append, Wire.vals_cons, Wire.vals_nil, Wire.vals_entry, p5, toJson, toJsons_eq, List.map_map, Function.comp_def])
        (all_back _ _ _ _ fun q hq => decPosting_sent hs ho (h q hq))]
    rfl
  | opn o =>
    simp only [List.mem_cons, List.not_mem_nil, or_false, forall_eq_or_imp, forall_eq] at hp
    obtain ⟨p1, p2, p3, p4, p5, p6, p7, p8, p9, p10, p11, p12, -⟩ := hp
    unfold Wire.decVariant
    simp only [ofVariant, List.map_append, List.map_cons, List.map_nil, jsonEntry_opt, jsonEntry, kws_eq, strs_eq]
    rw [Wire.req_dct (k := str% "open") (by simp [Wire.vals_append, Wire.vals_cons, Wire.vals_nil, Wire.vals_entry, p1])]
    simp only []
    rw [Wire.req_of_vals (k := str% "acc") (a := o.acc) (j := .str o.acc) (by
          simp [Wire.vals_append, Wire.vals_cons, Wire.vals_nil, Wire.vals_entry, p8]) (Wire.toRef_str h.1),
      opt_back (k := str% "currencies") (x := o.currencies) (enc := fun l => toJson ordm (ofSet ord l)) (by
          simp [Wire.vals_append, Wire.vals_cons, Wire.vals_nil, Wire.vals_entry, p11])
        (fun a ha => decSet_sent hs (h.2 a ha)) sets_ne_null,
      Wire.opt_of_vals (k := str% "booking") (x := o.booking) (enc := fun b => .str (bookingName b)) (by
          simp [Wire.vals_append, Wire.vals_cons, Wire.vals_nil, Wire.vals_entry, p12])
        (fun b _ => by cases b <;> rfl) (by simp)]
    rfl
  | price p =>
    simp only [List.mem_cons, List.not_mem_nil, or_false, forall_eq_or_imp, forall_eq] at hp
    obtain ⟨p1, p2, p3, p4, p5, p6, p7, -⟩ := hp
    unfold Wire.decVariant
    simp only [ofVariant, List.map_cons, List.map_nil, jsonEntry, kws_eq, strs_eq]
    rw [Wire.req_dct (k := str% "price") (by simp [Wire.vals_append, Wire.vals_cons, Wire.vals_nil, p1])]
    simp only []
    rw [Wire.req_of_vals (k := str% "cur") (a := p.cur) (j := .str p.cur) (by
          simp [Wire.vals_append, Wire.vals_cons, Wire.vals_nil, p6]) (Wire.toRef_str h.1),
      Wire.req_of_vals (k := str% "price") (a := p.price) (j := toJson ordm (ofPrice p.price)) (by
          simp [Wire.vals_append, Wire.vals_cons, Wire.vals_nil, p7]) (decPrice_sent ho h.2)]
    rfl
  | custom c =>
    simp only [List.mem_cons, List.not_mem_nil, or_false, forall_eq_or_imp, forall_eq] at hp
    obtain ⟨p1, p2, p3, p4, p5, p6, p7, p8, p9, p10, p11, p12, p13, p14, p15, p16, p17, p18, p19, p20⟩ := hp
    unfold Wire.decVariant
    simp only [ofVariant, List.map_cons, List.map_nil, jsonEntry, kws_eq, strs_eq]
    rw [Wire.req_dct (k := str% "custom") (by simp [Wire.vals_append, Wire.vals_cons, Wire.vals_nil, p1])]
    simp only []
    rw [Wire.req_of_vals (k := str% "type") (a := c.type_) (j := .str c.type_) (by
          simp [Wire.vals_append, Wire.vals_cons, Wire.vals_nil, p16]) rfl,
      Wire.req_of_vals (k := str% "values") (a := c.values) (j := .arr (c.values.map fun v => toJson ordm (ofMeta v))) (by
          simp [Wire.vals_append, Wire.vals_cons, Wire.vals_nil, p20, toJson, toJsons_eq, List.map_map, Function.comp_def])
        (Wire.all_map _ _ _ fun v hv => decMeta_sent ho (h v hv))]
    rfl
  | balance b =>
    have e : (ofVariant ord (.balance b)).map (jsonEntry ordm) = Wire.encVariant (.balance b) := by
      simp only [ofVariant, List.map_append, List.map_cons, List.map_nil, jsonEntry_opt, jsonEntry, kws_eq, strs_eq, nums_eq, Wire.encVariant]
    rw [e]
    exact Wire.decVariant_encVariant h hp
  | close c => exact Wire.decVariant_encVariant (v := .close c) h hp
  | commodity c => exact Wire.decVariant_encVariant (v := .commodity c) h hp
  | pad c => exact Wire.decVariant_encVariant (v := .pad c) h hp
  | document c => exact Wire.decVariant_encVariant (v := .document c) h hp
  | note c => exact Wire.decVariant_encVariant (v := .note c) h hp
  | event c => exact Wire.decVariant_encVariant (v := .event c) h hp
  | query c => exact Wire.decVariant_encVariant (v := .query c) h hp

/-- A directive which comes back. -/
def directiveBack (ord : List Data → List Data) (ordm : List (Str × Json) → List (Str × Json)) (d : Raw.Directive) : Raw.Directive :=
  { d with
    tags := d.tags.map (setBack ord), links := d.links.map (setBack ord), metadata := d.metadata.map (metaBack ordm)
    variant := variantBack ord ordm d.variant }

theorem variant_keys (ord : List Data → List Data) (v : Raw.Variant) :
    ((ofVariant ord v).map Prod.fst).Nodup ∧ ∀ k ∈ (ofVariant ord v).map Prod.fst,
      k ∉ [str% "span", str% "date", str% "tags", str% "links", str% "metadata"] := by
  have key : ∀ ks : List Str, Fresh ks → ((ofVariant ord v).map Prod.fst).Sublist ks →
      ((ofVariant ord v).map Prod.fst).Nodup ∧ ∀ k ∈ (ofVariant ord v).map Prod.fst,
      k ∉ [str% "span", str% "date", str% "tags", str% "links", str% "metadata"] := by
    intro ks hf hs
    refine ⟨hf.1.sublist hs, fun k hk => ?_⟩
    have := hf.2 k (hs.subset hk)
    simp only [List.mem_cons, List.not_mem_nil, or_false]
    tauto
  cases v with
  | transaction t =>
    refine key [str% "dct", str% "flag", str% "payee", str% "narration", str% "postings"] (by decide) ?_
    simp only [ofVariant, List.map_append, List.map_cons, List.map_nil]
    exact (((List.Sublist.refl [_, _]).append (keys_opt _ _ _)).append (keys_opt _ _ _)).append (List.Sublist.refl [_])
  | balance t =>
    refine key [str% "dct", str% "acc", str% "units", str% "cur", str% "tolerance"] (by decide) ?_
    simp only [ofVariant, List.map_append, List.map_cons, List.map_nil]
    exact (List.Sublist.refl [_, _, _, _]).append (keys_opt _ _ _)
  | opn t =>
    refine key [str% "dct", str% "acc", str% "currencies", str% "booking"] (by decide) ?_
    simp only [ofVariant, List.map_append, List.map_cons, List.map_nil]
    exact ((List.Sublist.refl [_, _]).append (keys_opt _ _ _)).append (keys_opt _ _ _)
  | _ => exact key _ (by simp only [ofVariant, List.map_cons, List.map_nil]; decide) (List.Sublist.refl _)

theorem vals_keys {l : List (Str × Json)} {k : Str} (h : k ∉ l.map Prod.fst) : vals k l = [] := by
  simp only [vals, List.filterMap_eq_nil_iff]
  intro p hp
  rw [if_neg]
  rintro rfl
  exact h (List.mem_map.2 ⟨p, hp, rfl⟩)

theorem decDirective_sent (hs : IsOrder ord) (ho : IsMapOrder ordm) {d : Raw.Directive} (h : DirectiveOk d) :
    Wire.decDirective (toJson ordm (ofDirective ord d)) = some (directiveBack ord ordm d) := by
  obtain ⟨k1, k2⟩ := variant_keys ord d.variant
  unfold ofDirective
  rw [toJson, decDirective_congr (field_sent ho (by
    have hk : [str% "span", str% "date", str% "tags", str% "links", str% "metadata"].Nodup := by decide
    rw [List.map_append]
    have hsub : ((optEntry (str% "span") d.span ofSpan ++ [(str% "date", Data.date d.date)] ++ optEntry (str% "tags") d.tags (ofSet ord) ++
        optEntry (str% "links") d.links (ofSet ord) ++ optEntry (str% "metadata") d.metadata ofMetadata).map Prod.fst).Sublist
        [str% "span", str% "date", str% "tags", str% "links", str% "metadata"] := by
      simp only [List.map_append, List.map_cons, List.map_nil]
      exact ((((keys_opt _ _ _).append (List.Sublist.refl [_])).append (keys_opt _ _ _)).append (keys_opt _ _ _)).append (keys_opt _ _ _)
    refine List.nodup_append.2 ⟨hk.sublist hsub, k1, ?_⟩
    rintro a ha b hb rfl
    exact k2 a hb (hsub.subset ha)))]
  have hv : ∀ k ∈ [str% "span", str% "date", str% "tags", str% "links", str% "metadata"],
      vals k ((ofVariant ord d.variant).map (jsonEntry ordm)) = [] := fun k hk => vals_keys (by
    rw [keys_json]
    exact fun hc => k2 k hc hk)
  simp only [List.mem_cons, List.not_mem_nil, or_false, forall_eq_or_imp, forall_eq] at hv
  obtain ⟨v1, v2, v3, v4, v5⟩ := hv
  unfold Wire.decDirective
  rw [List.map_append]
  simp only [List.map_append, List.map_cons, List.map_nil, jsonEntry_opt, spans_eq]
  have ed : jsonEntry ordm (str% "date", Data.date d.date) = (str% "date", Wire.encDate d.date) := by rw [jsonEntry, dates_eq]
  rw [ed]
  rw [Wire.opt_of_vals (k := str% "span") (x := d.span) (enc := Wire.encSpan) (by
        simp [Wire.vals_append, Wire.vals_cons, Wire.vals_nil, Wire.vals_entry, v1]) (by simp [Wire.decSpan_encSpan]) (by simp [Wire.encSpan]),
    Wire.req_of_vals (k := str% "date") (a := d.date) (j := Wire.encDate d.date) (by
        simp [Wire.vals_append, Wire.vals_cons, Wire.vals_nil, Wire.vals_entry, v2]) (Wire.decDate_encDate (Wire.validDate_iff.2 h.date)),
    opt_back (k := str% "tags") (x := d.tags) (enc := fun l => toJson ordm (ofSet ord l)) (by
        simp [Wire.vals_append, Wire.vals_cons, Wire.vals_nil, Wire.vals_entry, v3])
      (fun a ha => decSet_sent hs (h.attached.tags a ha)) sets_ne_null,
    opt_back (k := str% "links") (x := d.links) (enc := fun l => toJson ordm (ofSet ord l)) (by
        simp [Wire.vals_append, Wire.vals_cons, Wire.vals_nil, Wire.vals_entry, v4])
      (fun a ha => decSet_sent hs (h.attached.links a ha)) sets_ne_null,
    opt_back (k := str% "metadata") (x := d.metadata) (enc := fun l => toJson ordm (ofMetadata l)) (by
        simp [Wire.vals_append, Wire.vals_cons, Wire.vals_nil, Wire.vals_entry, v5])
      (fun a ha => decMetadata_sent ho (h.attached.metadata a ha)) metadata_ne_null,
    decVariant_sent hs ho h.variant (by
      simp [Wire.vals_append, Wire.vals_cons, Wire.vals_nil, Wire.vals_entry])]
  rfl

theorem sameSet_back {α : Type} {g : List α → List α} {x : Option (List α)} (h : ∀ l ∈ x, (g l).Perm l) : SameSet (x.map g) x := by
  cases x with
  | none => trivial
  | some l => exact h l rfl

theorem postingBack_same (hs : IsOrder ord) (ho : IsMapOrder ordm) {p : Raw.PostingSpec} (h : PostingOk p) :
    ReorderedPosting (postingBack ord ordm p) p where
  tags := sameSet_back fun l _ => setBack_perm hs l
  links := sameSet_back fun l _ => setBack_perm hs l
  metadata := sameSet_back fun l hl => metaBack_perm ho fun kv hkv => ((h.attached.metadata l hl).2 kv hkv).2
  rest := rfl

theorem directiveBack_same (hs : IsOrder ord) (ho : IsMapOrder ordm) {d : Raw.Directive} (h : DirectiveOk d) :
    ReorderedDirective (directiveBack ord ordm d) d where
  span := rfl
  date := rfl
  tags := sameSet_back fun l _ => setBack_perm hs l
  links := sameSet_back fun l _ => setBack_perm hs l
  metadata := sameSet_back fun l hl => metaBack_perm ho fun kv hkv => ((h.attached.metadata l hl).2 kv hkv).2
  variant := by
    have hv := h.variant
    simp only [directiveBack]
    cases he : d.variant with
    | transaction t =>
      rw [he] at hv
      refine ⟨?_, rfl⟩
      simp only [List.forall₂_map_left_iff]
      exact List.forall₂_same.2 fun p hp => postingBack_same hs ho (hv p hp)
    | opn o => exact ⟨sameSet_back fun l _ => setBack_perm hs l, rfl⟩
    | _ => rfl

end Clj
end Limabean
