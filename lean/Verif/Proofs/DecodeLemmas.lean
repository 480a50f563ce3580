/-
What the client reads from the JSON of the server's directives.
-/
import Verif.Proofs.DataLemmas

namespace Limabean
namespace Clj

open Spec Json

variable {ord : List Data → List Data}

/-- The entries of an object, with keys among `ks`, are decoded to the entries `l'`. -/
structure Entries (ord : List Data → List Data) (l : List (Str × Json)) (l' : List (Str × Data)) (ks : List Str) : Prop where
  fields : Json.all (fun p => (field ord p.1 p.2).map (p.1, ·)) l = some l'
  keys : (l.map Prod.fst).Sublist ks

theorem Entries.decode {l : List (Str × Json)} {l' : List (Str × Data)} {ks : List Str} (h : Entries ord l l' ks) (hn : ks.Nodup)
    (key : Option Str) : decode ord key (.obj l) = some (.map l') := by
  rw [decode_obj ord key (hn.sublist h.keys), h.fields]
  rfl

theorem all_append {α β : Type} {f : α → Option β} {a b : List α} {a' b' : List β} (h : Json.all f a = some a')
    (h' : Json.all f b = some b') : Json.all f (a ++ b) = some (a' ++ b') := by
  induction a generalizing a' with
  | nil => cases h; exact h'
  | cons x a ih =>
    simp only [Json.all] at h
    split at h
    · rename_i y ys h1 h2
      cases h
      rw [List.cons_append, Json.all, h1, ih h2]
      rfl
    · cases h

theorem Entries.append {a b : List (Str × Json)} {a' b' : List (Str × Data)} {ks ks' : List Str} (h : Entries ord a a' ks)
    (h' : Entries ord b b' ks') : Entries ord (a ++ b) (a' ++ b') (ks ++ ks') where
  fields := all_append h.fields h'.fields
  keys := by rw [List.map_append]; exact h.keys.append h'.keys

theorem Entries.nil : Entries ord [] [] [] := ⟨rfl, by simp⟩

theorem Entries.cons {k : Str} {j : Json} {x : Data} {l : List (Str × Json)} {l' : List (Str × Data)} {ks : List Str}
    (h : field ord k j = some x) (h' : Entries ord l l' ks) : Entries ord ((k, j) :: l) ((k, x) :: l') (k :: ks) where
  fields := by simp [Json.all, h, h'.fields]
  keys := by simpa using h'.keys

theorem Entries.opt {α : Type} {k : Str} {x : Option α} {enc : α → Json} {f : α → Data} (h : ∀ a ∈ x, field ord k (enc a) = some (f a)) :
    Entries ord (entry k x enc) (optEntry k x f) [k] := by
  cases x with
  | none => exact ⟨rfl, by simp [entry]⟩
  | some a => exact ⟨by simp [entry, optEntry, Json.all, h a rfl], by simp [entry]⟩

theorem field_plain {k : Str} (h : k ≠ str% "date" ∧ k ≠ str% "dct" ∧ k ≠ str% "booking") (j : Json) :
    field ord k j = decode ord (some k) j := by
  unfold field convEntry
  cases decode ord (some k) j <;> simp [h]

theorem decode_str (key : Option Str) (s : Str) : decode ord key (.str s) = some (.str s) := by
  simp [decode, ofJson, convertValues]

theorem decode_num (key : Option Str) (d : Dec) : decode ord key (.num d) = some (.num d) := by
  simp [decode, ofJson, convertValues]

theorem decode_bool (key : Option Str) (b : Bool) : decode ord key (.bool b) = some (.bool b) := by
  simp [decode, ofJson, convertValues]

theorem decode_null (key : Option Str) : decode ord key .null = some .nil := by
  simp [decode, ofJson, convertValues]

theorem decode_list {α : Type} {key : Option Str} (hk : isSetKey key = false) {l : List α} {enc : α → Json} {f : α → Data}
    (h : ∀ a ∈ l, decode ord none (enc a) = some (f a)) : decode ord key (.arr (l.map enc)) = some (.vec (l.map f)) := by
  unfold decode
  rw [ofJson, hk]
  simp only [Bool.false_eq_true, if_false, convertValues]
  rw [ofJsons_eq, convertAll_eq, List.map_map, all_map_left]
  rw [show Json.all (fun a => convertValues ((ofJson ord none ∘ enc) a)) l = some (l.map f) from ?_]
  · rfl
  · rw [← all_some_map]
    exact all_congr h

/-- The order of iteration only rearranges. -/
def IsOrder (ord : List Data → List Data) : Prop := ∀ l, (ord l).Perm l

theorem decode_set (ho : IsOrder ord) {key : Option Str} (hk : isSetKey key = true) (l : List Str) :
    decode ord key (Wire.encSet l) = some (ofSet ord l) := by
  unfold decode Wire.encSet ofSet
  rw [ofJson, hk]
  simp only [if_true, convertValues]
  rw [ofJsons_eq, convertAll_eq, List.map_map]
  have e : l.map (ofJson ord none ∘ Json.str) = l.map Data.str := List.map_congr_left fun s _ => by simp [ofJson]
  rw [e]
  have : Json.all convertValues (ord (l.map Data.str)) = some (ord (l.map Data.str)) := by
    rw [← all_some]
    conv_rhs => rw [all_some, ← all_some]
    refine all_congr fun x hx => ?_
    rw [(ho _).mem_iff] at hx
    obtain ⟨s, -, rfl⟩ := List.mem_map.1 hx
    simp [convertValues]
  rw [this]
  rfl

theorem decode_nat (key : Option Str) (n : Nat) : decode ord key (nat n) = some (ofNat n) := decode_num _ _

theorem decode_span {key : Option Str} (hk : isSetKey key = false) (s : Span) : decode ord key (Wire.encSpan s) = some (ofSpan s) :=
  decode_list hk (l := [s.source, s.start, s.stop]) (enc := nat) (f := ofNat) fun n _ => decode_nat none n

theorem field_date {d : Date} (h : CalendarDate d) : field ord (str% "date") (Wire.encDate d) = some (.date d) := by
  unfold field Wire.encDate
  rw [decode_str]
  simp [convEntry, Wire.parseDate_fmtDate (Wire.validDate_iff.2 h)]

theorem field_dct (s : Str) : field ord (str% "dct") (.str s) = some (.kw s) := by
  unfold field
  rw [decode_str]
  simp [convEntry, Data.keyword]

theorem field_booking (b : Booking) : field ord (str% "booking") (Wire.encBooking b) = some (.kw (bookingName b)) := by
  unfold field
  cases b <;> (rw [Wire.encBooking, decode_str]; simp [convEntry, Data.keyword, bookingName])

theorem field_str {k : Str} (h : k ≠ str% "date" ∧ k ≠ str% "dct" ∧ k ≠ str% "booking") (s : Str) :
    field ord k (.str s) = some (.str s) := by rw [field_plain h, decode_str]

theorem field_num {k : Str} (h : k ≠ str% "date" ∧ k ≠ str% "dct" ∧ k ≠ str% "booking") (d : Dec) :
    field ord k (.num d) = some (.num d) := by rw [field_plain h, decode_num]

theorem decode_meta (key : Option Str) {v : MetaValue} (h : ∀ d, v = .date d → CalendarDate d) :
    decode ord key (Wire.encMeta v) = some (ofMeta v) := by
  cases v with
  | null => exact decode_null _
  | amount u c => exact ((Entries.cons (field_num (by decide) u) (.cons (field_str (by decide) c) .nil))).decode (by decide) key
  | string s => exact (Entries.cons (field_str (by decide) s) .nil).decode (by decide) key
  | currency s => exact (Entries.cons (field_str (by decide) s) .nil).decode (by decide) key
  | account s => exact (Entries.cons (field_str (by decide) s) .nil).decode (by decide) key
  | tag s => exact (Entries.cons (field_str (by decide) s) .nil).decode (by decide) key
  | link s => exact (Entries.cons (field_str (by decide) s) .nil).decode (by decide) key
  | date d => exact (Entries.cons (field_date (h d rfl)) .nil).decode (by decide) key
  | bool b =>
    exact (Entries.cons (by rw [field_plain (by decide), decode_bool]) .nil).decode (by decide) key
  | number d => exact (Entries.cons (field_num (by decide) d) .nil).decode (by decide) key

/-- The value of a metadata entry. -/
theorem field_meta (k : Str) {v : MetaValue} (h : ∀ d, v = .date d → CalendarDate d) :
    field ord k (Wire.encMeta v) =
      some (if k = str% "dct" ∨ k = str% "booking" then .nil else ofMeta v) := by
  unfold field
  rw [decode_meta _ h]
  simp only [Option.bind_some]
  unfold convEntry
  by_cases e : k = str% "date"
  · subst e
    cases v <;> simp [ofMeta]
  · by_cases e' : k = str% "dct" ∨ k = str% "booking"
    · simp only [e, e', if_true, if_false]
      cases v <;> rfl
    · simp only [e, e', if_false]

theorem decode_metadata (key : Option Str) {l : List (Str × MetaValue)} (h : MetadataOk (some l)) :
    decode ord key (Wire.encMetadata l) =
      some (ofMetadata (l.map fun p => if p.1 = str% "dct" ∨ p.1 = str% "booking" then (p.1, .null) else p)) := by
  obtain ⟨h1, h2⟩ := h l rfl
  unfold Wire.encMetadata
  rw [decode_obj ord key (by rwa [List.map_map, show (Prod.fst ∘ fun p : Str × MetaValue => (p.1, Wire.encMeta p.2)) = Prod.fst from rfl]),
    all_map_left]
  rw [show Json.all (fun a : Str × MetaValue => (field ord (a.1, Wire.encMeta a.2).1 (a.1, Wire.encMeta a.2).2).map
      ((a.1, Wire.encMeta a.2).1, ·)) l = some (l.map fun p => (p.1, ofMeta (if p.1 = str% "dct" ∨ p.1 = str% "booking" then .null else p.2)))
    from ?_]
  · simp only [Option.map_some, ofMetadata, List.map_map]
    congr 2
    refine List.map_congr_left fun p _ => ?_
    simp only [Function.comp]
    split <;> rfl
  · rw [← all_some_map]
    refine all_congr fun p hp => ?_
    simp only
    rw [field_meta p.1 (h2 p hp)]
    simp only [Option.map_some]
    split <;> rfl

theorem opt_metadata {m : Option (List (Str × MetaValue))} (h : MetadataOk m) :
    Entries ord (entry (str% "metadata") m Wire.encMetadata) (optEntry (str% "metadata") (withoutLost m) ofMetadata) [str% "metadata"] := by
  cases m with
  | none => exact ⟨rfl, by simp [entry]⟩
  | some l =>
    refine ⟨?_, by simp [entry]⟩
    simp only [entry, withoutLost, optEntry, Option.map_some, Json.all]
    rw [field_plain (by decide), decode_metadata _ h]
    rfl

theorem opt_set (ho : IsOrder ord) {k : Str} (hk : isSetKey (some k) = true)
    (h : k ≠ str% "date" ∧ k ≠ str% "dct" ∧ k ≠ str% "booking") (x : Option (List Str)) :
    Entries ord (entry k x Wire.encSet) (optEntry k x (ofSet ord)) [k] :=
  .opt fun l _ => by rw [field_plain h, decode_set ho hk]

theorem opt_str {k : Str} (h : k ≠ str% "date" ∧ k ≠ str% "dct" ∧ k ≠ str% "booking") (x : Option Str) :
    Entries ord (entry k x .str) (optEntry k x .str) [k] := .opt fun s _ => field_str h s

theorem opt_num {k : Str} (h : k ≠ str% "date" ∧ k ≠ str% "dct" ∧ k ≠ str% "booking") (x : Option Dec) :
    Entries ord (entry k x .num) (optEntry k x .num) [k] := .opt fun s _ => field_num h s

theorem opt_span (x : Option Span) : Entries ord (entry (str% "span") x Wire.encSpan) (optEntry (str% "span") x ofSpan) [str% "span"] :=
  .opt fun s _ => by rw [field_plain (by decide), decode_span (by decide)]

theorem opt_true {k : Str} (h : k ≠ str% "date" ∧ k ≠ str% "dct" ∧ k ≠ str% "booking") (x : Option Unit) :
    Entries ord (entry k x (fun _ => .bool true)) (optEntry k x (fun _ => .bool true)) [k] :=
  .opt fun s _ => by rw [field_plain h, decode_bool]

theorem decode_costSpec (key : Option Str) {c : Raw.CostSpec} (h : ∀ x ∈ c.date, CalendarDate x) :
    decode ord key (Wire.encCostSpec c) = some (ofCostSpec c) :=
  Entries.decode ((((((opt_num (by decide) _).append (opt_num (by decide) _)).append (opt_str (by decide) _)).append
    (.opt fun d hd => field_date (h d hd))).append (opt_str (by decide) _)).append (opt_true (by decide) _)) (by decide) key

theorem decode_priceSpec (key : Option Str) (p : Raw.PriceSpec) : decode ord key (Wire.encPriceSpec p) = some (ofPriceSpec p) :=
  Entries.decode (((opt_num (by decide) _).append (opt_num (by decide) _)).append (opt_str (by decide) _)) (by decide) key

theorem decode_price (key : Option Str) (p : Raw.Price) : decode ord key (Wire.encPrice p) = some (ofPrice p) :=
  Entries.decode (((Entries.cons (field_num (by decide) _) .nil).append (opt_num (by decide) _)).append
    (.cons (field_str (by decide) _) .nil)) (by decide) key

theorem decode_posting (ho : IsOrder ord) (key : Option Str) {p : Raw.PostingSpec} (h : MetadataOk p.metadata)
    (h' : ∀ c ∈ p.costSpec, ∀ x ∈ c.date, CalendarDate x) :
    decode ord key (Wire.encPosting p) = some (ofPosting ord { p with metadata := withoutLost p.metadata }) :=
  Entries.decode ((((((((((opt_span _).append (opt_str (by decide) _)).append (.cons (field_str (by decide) _) .nil)).append
    (opt_num (by decide) _)).append (opt_str (by decide) _)).append
    (.opt fun c hc => by rw [field_plain (by decide), decode_costSpec _ (h' c hc)])).append
    (.opt fun c _ => by rw [field_plain (by decide), decode_priceSpec])).append (opt_set ho (by decide) (by decide) _)).append
    (opt_set ho (by decide) (by decide) _)).append (opt_metadata h)) (by decide) key

/-- A variant without the metadata which are lost. -/
def lostVariant : Raw.Variant → Raw.Variant
  | .transaction t => .transaction { t with postings := t.postings.map fun p => { p with metadata := withoutLost p.metadata } }
  | v => v

/-- The dates of a variant exist. -/
def VariantOk : Raw.Variant → Prop
  | .transaction t => ∀ p ∈ t.postings, MetadataOk p.metadata ∧ ∀ c ∈ p.costSpec, ∀ x ∈ c.date, CalendarDate x
  | .custom c => ∀ v ∈ c.values, ∀ x, v = .date x → CalendarDate x
  | _ => True

/-- The fields which depend on the kind have none of these keys. -/
def Fresh (ks : List Str) : Prop :=
  ks.Nodup ∧ ∀ k ∈ ks, k ≠ str% "span" ∧ k ≠ str% "idx" ∧ k ≠ str% "date" ∧ k ≠ str% "tags" ∧ k ≠ str% "links" ∧ k ≠ str% "metadata"

instance (ks : List Str) : Decidable (Fresh ks) := inferInstanceAs (Decidable (_ ∧ _))

theorem variant_entries (ho : IsOrder ord) {v : Raw.Variant} (h : VariantOk v) :
    ∃ ks, Fresh ks ∧ Entries ord (Wire.encVariant v) (ofVariant ord (lostVariant v)) ks := by
  cases v with
  | transaction t =>
    refine ⟨_, ?_, (((Entries.cons (field_dct _) (.cons (field_str (by decide) _) .nil)).append (opt_str (by decide) _)).append
      (opt_str (by decide) _)).append (.cons ?_ .nil)⟩
    · decide
    · rw [field_plain (by decide)]
      have := decode_list (ord := ord) (key := some (str% "postings")) (by decide) (l := t.postings) (enc := Wire.encPosting)
        (f := fun p => ofPosting ord { p with metadata := withoutLost p.metadata })
        fun p hp => decode_posting ho none (h p hp).1 (h p hp).2
      rw [this, List.map_map]
      rfl
  | price p =>
    refine ⟨_, ?_, Entries.cons (field_dct _) (.cons (field_str (by decide) _) (.cons ?_ .nil))⟩
    · decide
    · rw [field_plain (by decide), decode_price]
  | balance b =>
    refine ⟨_, ?_, (Entries.cons (field_dct _) (.cons (field_str (by decide) _) (.cons (field_num (by decide) _)
      (.cons (field_str (by decide) _) .nil)))).append (opt_num (by decide) _)⟩
    decide
  | opn o =>
    refine ⟨_, ?_, ((Entries.cons (field_dct _) (.cons (field_str (by decide) _) .nil)).append
      (opt_set ho (by decide) (by decide) _)).append (.opt fun b _ => field_booking b)⟩
    decide
  | close c => exact ⟨_, by decide, Entries.cons (field_dct _) (.cons (field_str (by decide) _) .nil)⟩
  | commodity c => exact ⟨_, by decide, Entries.cons (field_dct _) (.cons (field_str (by decide) _) .nil)⟩
  | pad c => exact ⟨_, by decide, Entries.cons (field_dct _) (.cons (field_str (by decide) _) (.cons (field_str (by decide) _) .nil))⟩
  | document c => exact ⟨_, by decide, Entries.cons (field_dct _) (.cons (field_str (by decide) _) (.cons (field_str (by decide) _) .nil))⟩
  | note c => exact ⟨_, by decide, Entries.cons (field_dct _) (.cons (field_str (by decide) _) (.cons (field_str (by decide) _) .nil))⟩
  | event c => exact ⟨_, by decide, Entries.cons (field_dct _) (.cons (field_str (by decide) _) (.cons (field_str (by decide) _) .nil))⟩
  | query c => exact ⟨_, by decide, Entries.cons (field_dct _) (.cons (field_str (by decide) _) (.cons (field_str (by decide) _) .nil))⟩
  | custom c =>
    refine ⟨_, ?_, Entries.cons (field_dct _) (.cons (field_str (by decide) _) (.cons ?_ .nil))⟩
    · decide
    · rw [field_plain (by decide)]
      exact decode_list (by decide) fun v hv => decode_meta none (h v hv)

theorem nodup_fresh {ks l : List Str} (h : Fresh ks) (hl : l.Nodup)
    (hs : ∀ k ∈ l, k = str% "span" ∨ k = str% "idx" ∨ k = str% "date" ∨ k = str% "tags" ∨ k = str% "links" ∨ k = str% "metadata") :
    (l ++ ks).Nodup := by
  refine List.nodup_append.2 ⟨hl, h.1, fun a ha b hb e => ?_⟩
  subst e
  have := h.2 a hb
  rcases hs a ha with rfl | rfl | rfl | rfl | rfl | rfl <;> simp at this

theorem decode_directive (ho : IsOrder ord) (key : Option Str) {d : Raw.Directive} (h : DatesOk d) :
    decode ord key (Wire.encDirective d) = some (ofDirective ord (withoutLostMeta d)) := by
  obtain ⟨h1, h2, h3⟩ := h
  obtain ⟨ks, hf, hv⟩ := variant_entries (ord := ord) ho (v := d.variant) (by cases hd : d.variant <;> rw [hd] at h3 <;> exact h3)
  have e : ofDirective ord (withoutLostMeta d) = .map (optEntry (str% "span") d.span ofSpan ++ [(str% "date", .date d.date)] ++
    optEntry (str% "tags") d.tags (ofSet ord) ++ optEntry (str% "links") d.links (ofSet ord) ++
    optEntry (str% "metadata") (withoutLost d.metadata) ofMetadata ++ ofVariant ord (lostVariant d.variant)) := rfl
  rw [e]
  exact (((((((opt_span _).append (.cons (field_date h1) .nil)).append (opt_set ho (by decide) (by decide) _)).append
    (opt_set ho (by decide) (by decide) _)).append (opt_metadata h2)).append hv)).decode
    (nodup_fresh hf (by decide) (by decide)) key

theorem decode_cost (key : Option Str) {c : Booked.Cost} (h : CalendarDate c.date) :
    decode ord key (Wire.encCost c) = some (ofCost c) :=
  Entries.decode (((Entries.cons (field_date h) (.cons (field_num (by decide) _) (.cons (field_num (by decide) _)
    (.cons (field_str (by decide) _) .nil)))).append (opt_str (by decide) _)).append (opt_true (by decide) _)) (by decide) key

theorem decode_bookedPrice (key : Option Str) (p : Booked.Price) : decode ord key (Wire.encBookedPrice p) = some (ofBookedPrice p) :=
  Entries.decode (((Entries.cons (field_num (by decide) _) .nil).append (opt_num (by decide) _)).append
    (.cons (field_str (by decide) _) .nil)) (by decide) key

theorem opt_nat {k : Str} (h : k ≠ str% "date" ∧ k ≠ str% "dct" ∧ k ≠ str% "booking") (x : Option Nat) :
    Entries ord (entry k x nat) (optEntry k x ofNat) [k] := .opt fun n _ => by rw [field_plain h, decode_nat]

theorem decode_bookedPosting (ho : IsOrder ord) (key : Option Str) {p : Booked.Posting} (h : MetadataOk p.metadata)
    (h' : ∀ c ∈ p.cost, CalendarDate c.date) :
    decode ord key (Wire.encBookedPosting p) = some (ofBookedPosting ord { p with metadata := withoutLost p.metadata }) :=
  Entries.decode ((((((((opt_nat (by decide) _).append (opt_str (by decide) _)).append
    (.cons (field_str (by decide) _) (.cons (field_num (by decide) _) (.cons (field_str (by decide) _) .nil)))).append
    (.opt fun c hc => by rw [field_plain (by decide), decode_cost _ (h' c hc)])).append
    (.opt fun c _ => by rw [field_plain (by decide), decode_bookedPrice])).append (opt_set ho (by decide) (by decide) _)).append
    (opt_set ho (by decide) (by decide) _)).append (opt_metadata h)) (by decide) key

/-- A booked variant without the metadata which are lost. -/
def lostBookedVariant : Booked.Variant → Booked.Variant
  | .transaction t => .transaction { t with postings := t.postings.map fun p => { p with metadata := withoutLost p.metadata } }
  | v => v

/-- The dates of a booked variant exist. -/
def BookedVariantOk : Booked.Variant → Prop
  | .transaction t => ∀ p ∈ t.postings, MetadataOk p.metadata ∧ ∀ c ∈ p.cost, CalendarDate c.date
  | .custom c => ∀ v ∈ c.values, ∀ x, v = .date x → CalendarDate x
  | _ => True

theorem bookedVariant_entries (ho : IsOrder ord) {v : Booked.Variant} (h : BookedVariantOk v) :
    ∃ ks, Fresh ks ∧ Entries ord (Wire.encBookedVariant v) (ofBookedVariant ord (lostBookedVariant v)) ks := by
  cases v with
  | transaction t =>
    refine ⟨_, ?_, (((Entries.cons (field_dct _) (.cons (field_str (by decide) _) .nil)).append (opt_str (by decide) _)).append
      (opt_str (by decide) _)).append (.cons ?_ .nil)⟩
    · decide
    · rw [field_plain (by decide)]
      have := decode_list (ord := ord) (key := some (str% "postings")) (by decide) (l := t.postings) (enc := Wire.encBookedPosting)
        (f := fun p => ofBookedPosting ord { p with metadata := withoutLost p.metadata })
        fun p hp => decode_bookedPosting ho none (h p hp).1 (h p hp).2
      rw [this, List.map_map]
      rfl
  | price p => exact variant_entries ho (v := .price p) trivial
  | balance b => exact variant_entries ho (v := .balance b.raw) trivial
  | opn o => exact variant_entries ho (v := .opn o) trivial
  | close c => exact variant_entries ho (v := .close c) trivial
  | commodity c => exact variant_entries ho (v := .commodity c) trivial
  | pad c => exact variant_entries ho (v := .pad c) trivial
  | document c => exact variant_entries ho (v := .document c) trivial
  | note c => exact variant_entries ho (v := .note c) trivial
  | event c => exact variant_entries ho (v := .event c) trivial
  | query c => exact variant_entries ho (v := .query c) trivial
  | custom c => exact variant_entries ho (v := .custom c) h

theorem decode_booked (ho : IsOrder ord) (key : Option Str) {d : Booked.Directive} (h : BookedDatesOk d) :
    decode ord key (Wire.encBookedDirective d) = some (ofBooked ord (withoutLostBooked d)) := by
  obtain ⟨h1, h2, h3⟩ := h
  obtain ⟨ks, hf, hv⟩ := bookedVariant_entries (ord := ord) ho (v := d.variant)
    (by cases hd : d.variant <;> rw [hd] at h3 <;> exact h3)
  have e : ofBooked ord (withoutLostBooked d) = .map ([(str% "idx", ofNat d.idx), (str% "date", .date d.date)] ++
    optEntry (str% "tags") d.tags (ofSet ord) ++ optEntry (str% "links") d.links (ofSet ord) ++
    optEntry (str% "metadata") (withoutLost d.metadata) ofMetadata ++ ofBookedVariant ord (lostBookedVariant d.variant)) := rfl
  rw [e]
  refine Entries.decode (((((Entries.cons ?_ (.cons (field_date h1) .nil)).append (opt_set ho (by decide) (by decide) _)).append
    (opt_set ho (by decide) (by decide) _)).append (opt_metadata h2)).append hv)
    (nodup_fresh hf (by decide) (by decide)) key
  rw [field_plain (by decide), decode_nat]

end Clj
end Limabean
