/-
Which of the server's directives satisfy the specification.
-/
import Verif.Clj.Valid
import Verif.Spec.Valid
import Verif.Spec.ClientData
import Verif.Props.C42
import Verif.Proofs.DecodeLemmas

namespace Limabean
namespace Clj

open Spec

theorem isNumber_num (n : Dec) : isNumber (.num n) = true ↔ FitsLong n := by
  simp only [isNumber, isDecimal, isInt, FitsLong, Bool.or_eq_true, Bool.and_eq_true, bne_iff_ne, beq_iff_eq, decide_eq_true_eq]
  tauto

theorem isMetavalue_ofMeta (v : MetaValue) : isMetavalue (ofMeta v) = true ↔ ∀ n ∈ metaNumbers v, FitsLong n := by
  cases v <;> simp [isMetavalue, ofMeta, onlyEntry, isAmount, reqUn, Data.find, AMap.get, isStr, isBool, isDate, isNil, countEntries,
    metaNumbers, isNumber_num]

theorem isMetadata_of (l : List (Str × MetaValue)) : isMetadata (ofMetadata l) = true ↔ ∀ n ∈ metadataNumbers (some l), FitsLong n := by
  simp only [isMetadata, ofMetadata, List.all_map, List.all_eq_true, Function.comp, isMetavalue_ofMeta, metadataNumbers, Option.getD_some,
    List.mem_flatMap]
  constructor
  · rintro h n ⟨p, hp, hn⟩; exact h p hp n hn
  · intro h p hp n hn; exact h n ⟨p, hp, hn⟩

theorem optUn_none {m : Data} {k : Str} {p : Data → Bool} (h : m.find k = none) : optUn m k p = true := by simp [optUn, h]

/-- An optional entry, given its value. -/
theorem optUn_map {α : Type} {m : Data} {k : Str} {p : Data → Bool} {x : Option α} {f : α → Data} (h : m.find k = x.map f) :
    optUn m k p = true ↔ ∀ a ∈ x, p (f a) = true := by
  cases x <;> simp [optUn, h]

theorem reqUn_some {m : Data} {k : Str} {p : Data → Bool} {x : Data} (h : m.find k = some x) : reqUn m k p = p x := by
  simp [reqUn, h]

theorem setOf_ofSet {ord : List Data → List Data} (ho : IsOrder ord) (l : List Str) : setOf isStr (ofSet ord l) = true := by
  simp only [setOf, ofSet, List.all_eq_true]
  intro x hx
  obtain ⟨s, -, rfl⟩ := List.mem_map.1 ((ho _).mem_iff.1 hx)
  rfl

theorem attachedOk_of {ord : List Data → List Data} (ho : IsOrder ord) {m : Data} {tags links : Option (List Str)}
    {md : Option (List (Str × MetaValue))} (h1 : m.find (str% "tags") = tags.map (ofSet ord))
    (h2 : m.find (str% "links") = links.map (ofSet ord)) (h3 : m.find (str% "metadata") = md.map ofMetadata) :
    attachedOk m = true ↔ ∀ n ∈ metadataNumbers md, FitsLong n := by
  simp only [attachedOk, Bool.and_eq_true, optUn_map h1, optUn_map h2, optUn_map h3, setOf_ofSet ho, isMetadata_of]
  cases md <;> simp [metadataNumbers]

theorem fits_append {a b : List Dec} : (∀ n ∈ a ++ b, FitsLong n) ↔ (∀ n ∈ a, FitsLong n) ∧ ∀ n ∈ b, FitsLong n := by
  simp only [List.mem_append]
  constructor
  · intro h; exact ⟨fun n hn => h n (.inl hn), fun n hn => h n (.inr hn)⟩
  · rintro ⟨h, h'⟩ n (hn | hn)
    · exact h n hn
    · exact h' n hn

theorem fits_option (x : Option Dec) : (∀ n ∈ x.toList, FitsLong n) ↔ ∀ n ∈ x, FitsLong n := by cases x <;> simp

theorem isCostSpec_of (c : Raw.CostSpec) : isCostSpec (ofCostSpec c) = true ↔ ∀ n ∈ c.perUnit.toList ++ c.total.toList, FitsLong n := by
  obtain ⟨a, b, cur, d, l, m⟩ := c
  rw [fits_append]
  cases a <;> cases b <;> cases cur <;> cases d <;> cases l <;> cases m <;>
    simp [isCostSpec, ofCostSpec, isMap, optUn, Data.find, get_append, get_optEntry, AMap.get, isStr, isBool, isDate, isNumber_num]

theorem isPriceSpec_of (c : Raw.PriceSpec) : isPriceSpec (ofPriceSpec c) = true ↔ ∀ n ∈ c.perUnit.toList ++ c.total.toList, FitsLong n := by
  obtain ⟨a, b, cur⟩ := c
  cases a <;> cases b <;> cases cur <;>
    simp [isPriceSpec, ofPriceSpec, isMap, optUn, Data.find, get_append, get_optEntry, AMap.get, isStr, isNumber_num]

theorem isPrice_of (c : Raw.Price) : isPrice (ofPrice c) = true ↔ ∀ n ∈ c.perUnit :: c.total.toList, FitsLong n := by
  obtain ⟨a, b, cur⟩ := c
  cases b <;> simp [isPrice, ofPrice, optUn, reqUn, Data.find, get_append, get_optEntry, AMap.get, isStr, isNumber_num]

theorem isPrice_booked (c : Booked.Price) : isPrice (ofBookedPrice c) = true ↔ ∀ n ∈ c.perUnit :: c.total.toList, FitsLong n := by
  obtain ⟨a, b, cur⟩ := c
  cases b <;> simp [isPrice, ofBookedPrice, optUn, reqUn, Data.find, get_append, get_optEntry, AMap.get, isStr, isNumber_num]

theorem isCost_of (c : Booked.Cost) : isCost (ofCost c) = true ↔ ∀ n ∈ [c.perUnit, c.total], FitsLong n := by
  obtain ⟨d, a, b, cur, l, m⟩ := c
  cases l <;> cases m <;>
    simp [isCost, ofCost, optUn, reqUn, Data.find, get_append, get_optEntry, AMap.get, isStr, isBool, isDate, isNumber_num]

theorem fits_flatMap {α : Type} (x : Option α) (f : α → List Dec) : (∀ n ∈ x.toList.flatMap f, FitsLong n) ↔ ∀ a ∈ x, ∀ n ∈ f a, FitsLong n := by
  cases x <;> simp

theorem fits_list {α : Type} (l : List α) (f : α → List Dec) : (∀ n ∈ l.flatMap f, FitsLong n) ↔ ∀ a ∈ l, ∀ n ∈ f a, FitsLong n := by
  simp only [List.mem_flatMap]
  constructor
  · intro h a ha n hn; exact h n ⟨a, ha, hn⟩
  · rintro h n ⟨a, ha, hn⟩; exact h a ha n hn

theorem isRawPosting_of {ord : List Data → List Data} (ho : IsOrder ord) (p : Raw.PostingSpec) :
    isRawPosting (ofPosting ord p) = true ↔ ∀ n ∈ postingNumbers p, FitsLong n := by
  have g (k : Str) : (ofPosting ord p).find k = _ := rfl
  have h0 : isMap (ofPosting ord p) = true := rfl
  have h1 : (ofPosting ord p).find (str% "flag") = p.flag.map .str := by simp [ofPosting, Data.find, get_append, get_optEntry, AMap.get]
  have h2 : (ofPosting ord p).find (str% "acc") = some (.str p.acc) := by simp [ofPosting, Data.find, get_append, get_optEntry, AMap.get]
  have h3 : (ofPosting ord p).find (str% "units") = p.units.map .num := by simp [ofPosting, Data.find, get_append, get_optEntry, AMap.get]
  have h4 : (ofPosting ord p).find (str% "cur") = p.cur.map .str := by simp [ofPosting, Data.find, get_append, get_optEntry, AMap.get]
  have h5 : (ofPosting ord p).find (str% "cost-spec") = p.costSpec.map ofCostSpec := by
    simp [ofPosting, Data.find, get_append, get_optEntry, AMap.get]
  have h6 : (ofPosting ord p).find (str% "price-spec") = p.priceSpec.map ofPriceSpec := by
    simp [ofPosting, Data.find, get_append, get_optEntry, AMap.get]
  have h7 := attachedOk_of ho (m := ofPosting ord p) (tags := p.tags) (links := p.links) (md := p.metadata)
    (by simp [ofPosting, Data.find, get_append, get_optEntry, AMap.get])
    (by simp [ofPosting, Data.find, get_append, get_optEntry, AMap.get])
    (by simp [ofPosting, Data.find, get_append, get_optEntry, AMap.get])
  have h2' : optUn (ofPosting ord p) (str% "acc") isStr = true := by simp [optUn, h2, isStr]
  simp only [isRawPosting, Bool.and_eq_true, h0, optUn_map h1, h2', optUn_map h3, optUn_map h4, optUn_map h5, optUn_map h6, h7,
    isCostSpec_of, isPriceSpec_of, isNumber_num, postingNumbers, fits_append, fits_flatMap, fits_option]
  simp [isStr]

theorem isBookedPosting_of {ord : List Data → List Data} (ho : IsOrder ord) (p : Booked.Posting) :
    isBookedPosting (ofBookedPosting ord p) = true ↔ ∀ n ∈ bookedPostingNumbers p, FitsLong n := by
  have h1 : (ofBookedPosting ord p).find (str% "flag") = p.flag.map .str := by
    simp [ofBookedPosting, Data.find, get_append, get_optEntry, AMap.get]
  have h2 : (ofBookedPosting ord p).find (str% "acc") = some (.str p.acc) := by
    simp [ofBookedPosting, Data.find, get_append, get_optEntry, AMap.get]
  have h3 : (ofBookedPosting ord p).find (str% "units") = some (.num p.units) := by
    simp [ofBookedPosting, Data.find, get_append, get_optEntry, AMap.get]
  have h4 : (ofBookedPosting ord p).find (str% "cur") = some (.str p.cur) := by
    simp [ofBookedPosting, Data.find, get_append, get_optEntry, AMap.get]
  have h5 : (ofBookedPosting ord p).find (str% "cost") = p.cost.map ofCost := by
    simp [ofBookedPosting, Data.find, get_append, get_optEntry, AMap.get]
  have h6 : (ofBookedPosting ord p).find (str% "price") = p.price.map ofBookedPrice := by
    simp [ofBookedPosting, Data.find, get_append, get_optEntry, AMap.get]
  have h7 := attachedOk_of ho (m := ofBookedPosting ord p) (tags := p.tags) (links := p.links) (md := p.metadata)
    (by simp [ofBookedPosting, Data.find, get_append, get_optEntry, AMap.get])
    (by simp [ofBookedPosting, Data.find, get_append, get_optEntry, AMap.get])
    (by simp [ofBookedPosting, Data.find, get_append, get_optEntry, AMap.get])
  simp only [isBookedPosting, Bool.and_eq_true, reqUn_some h2, reqUn_some h3, reqUn_some h4, optUn_map h1, optUn_map h5, optUn_map h6, h7,
    isCost_of, isPrice_booked, isNumber_num, bookedPostingNumbers, fits_append, fits_flatMap]
  simp [isStr]

theorem vectorOf_map {α : Type} {p : Data → Bool} {f : α → Data} {l : List α} : vectorOf p (.vec (l.map f)) = true ↔ ∀ a ∈ l, p (f a) = true := by
  simp [vectorOf]

/-- A directive: what comes before the part which depends on the kind is looked at by `validDct`, the rest by `kindOk`. -/
theorem valid_split {ord : List Data → List Data} (ho : IsOrder ord) {raw : Bool} {pre var : List (Str × Data)} {date : Date}
    {tags links : Option (List Str)} {md : Option (List (Str × MetaValue))}
    (hp : ∀ k, k = str% "date" ∨ k = str% "tags" ∨ k = str% "links" ∨ k = str% "metadata" → AMap.get pre k = none)
    (hv : ∀ k, k = str% "tags" ∨ k = str% "links" ∨ k = str% "metadata" → AMap.get var k = none) :
    let m := Data.map (pre ++ [(str% "date", .date date)] ++ optEntry (str% "tags") tags (ofSet ord) ++
      optEntry (str% "links") links (ofSet ord) ++ optEntry (str% "metadata") md ofMetadata ++ var)
    validDct raw m = true ↔ (∀ n ∈ metadataNumbers md, FitsLong n) ∧ kindOk raw m = true := by
  intro m
  have h1 : m.find (str% "date") = some (.date date) := by
    simp [m, Data.find, get_append, get_optEntry, AMap.get, hp _ (.inl rfl)]
  have h2 := attachedOk_of ho (m := m) (tags := tags) (links := links) (md := md)
    (by simp [m, Data.find, get_append, get_optEntry, AMap.get, hp _ (.inr (.inl rfl)), hv _ (.inl rfl)])
    (by simp [m, Data.find, get_append, get_optEntry, AMap.get, hp _ (.inr (.inr (.inl rfl))), hv _ (.inr (.inl rfl))])
    (by simp [m, Data.find, get_append, get_optEntry, AMap.get, hp _ (.inr (.inr (.inr rfl))), hv _ (.inr (.inr rfl))])
  simp [validDct, reqUn_some h1, h2, isDate]

theorem isBooking_name (b : Booking) : isBooking (.kw (bookingName b)) = true := by cases b <;> decide

/-- Entries before the part which depends on the kind do not matter to it. -/
theorem kindOk_of {ord : List Data → List Data} (ho : IsOrder ord) {raw : Bool} {pre : List (Str × Data)}
    (hp : ∀ k, k ∉ [str% "span", str% "idx", str% "date", str% "tags", str% "links", str% "metadata"] → AMap.get pre k = none)
    (v : Raw.Variant) (hr : ∀ t, v = .transaction t → raw = true) :
    kindOk raw (.map (pre ++ ofVariant ord v)) = true ↔ (∀ n ∈ variantNumbers v, FitsLong n) ∧ ∀ t ∈ toleranceOf v, t.s ≠ 0 := by
  have g (k : Str) (hk : k ∉ [str% "span", str% "idx", str% "date", str% "tags", str% "links", str% "metadata"]) :
      (Data.map (pre ++ ofVariant ord v)).find k = AMap.get (ofVariant ord v) k := by
    simp [Data.find, get_append, hp k hk]
  have g' (k : Str) (hk : k ∉ [str% "span", str% "idx", str% "date", str% "tags", str% "links", str% "metadata"]) :
      (Data.map (pre ++ ofVariant ord v)).get k = (AMap.get (ofVariant ord v) k).getD .nil := by
    simp [Data.get, get_append, hp k hk]
  unfold kindOk
  rw [g' _ (by decide)]
  generalize hm : Data.map (pre ++ ofVariant ord v) = m at g g'
  cases v with
  | transaction t =>
    have := hr t rfl
    subst this
    have h1 : m.find (str% "flag") = some (.str t.flag) := by
      rw [g _ (by decide)]; simp [ofVariant, get_append, get_optEntry, AMap.get]
    have h2 : m.find (str% "payee") = t.payee.map .str := by
      rw [g _ (by decide)]; simp [ofVariant, get_append, get_optEntry, AMap.get]
    have h3 : m.find (str% "narration") = t.narration.map .str := by
      rw [g _ (by decide)]; simp [ofVariant, get_append, get_optEntry, AMap.get]
    have h4 : m.find (str% "postings") = some (.vec (t.postings.map (ofPosting ord))) := by
      rw [g _ (by decide)]; simp [ofVariant, get_append, get_optEntry, AMap.get]
    have e : (AMap.get (ofVariant ord (.transaction t)) (str% "dct")).getD .nil = .kw (str% "txn") := by simp [ofVariant, AMap.get]
    have h5 : optUn m (str% "postings") (vectorOf isRawPosting) = vectorOf isRawPosting (.vec (t.postings.map (ofPosting ord))) := by
      simp [optUn, h4]
    rw [e]
    simp only [if_true, isTxn, Bool.and_eq_true, reqUn_some h1, optUn_map h2, optUn_map h3, h5, vectorOf_map, isRawPosting_of ho,
      variantNumbers, fits_list, toleranceOf]
    simp [isStr]
  | balance b =>
    have h1 : m.find (str% "acc") = some (.str b.acc) := by rw [g _ (by decide)]; simp [ofVariant, AMap.get]
    have h2 : m.find (str% "units") = some (.num b.units) := by rw [g _ (by decide)]; simp [ofVariant, AMap.get]
    have h3 : m.find (str% "cur") = some (.str b.cur) := by rw [g _ (by decide)]; simp [ofVariant, AMap.get]
    have h4 : m.find (str% "tolerance") = b.tolerance.map .num := by
      rw [g _ (by decide)]; simp [ofVariant, AMap.get, get_optEntry]
    have e : (AMap.get (ofVariant ord (.balance b)) (str% "dct")).getD .nil = .kw (str% "balance") := by simp [ofVariant, AMap.get]
    rw [e]
    simp [isBalance, reqUn_some h1, reqUn_some h2, reqUn_some h3, optUn_map h4, isStr, isNumber_num, variantNumbers, toleranceOf, isDecimal]
  | opn o =>
    have h1 : m.find (str% "acc") = some (.str o.acc) := by rw [g _ (by decide)]; simp [ofVariant, AMap.get]
    have h2 : m.find (str% "currencies") = o.currencies.map (ofSet ord) := by
      rw [g _ (by decide)]; simp [ofVariant, AMap.get, get_append, get_optEntry]
    have h3 : m.find (str% "booking") = o.booking.map (fun b => .kw (bookingName b)) := by
      rw [g _ (by decide)]; simp [ofVariant, AMap.get, get_append, get_optEntry]
    have h4 : m.get (str% "cur") = .nil := by rw [g' _ (by decide)]; simp [ofVariant, AMap.get, get_append, get_optEntry]
    have h5 : m.get (str% "curs") = .nil := by rw [g' _ (by decide)]; simp [ofVariant, AMap.get, get_append, get_optEntry]
    have h6 : m.get (str% "currency") = .nil := by rw [g' _ (by decide)]; simp [ofVariant, AMap.get, get_append, get_optEntry]
    have e : (AMap.get (ofVariant ord (.opn o)) (str% "dct")).getD .nil = .kw (str% "open") := by simp [ofVariant, AMap.get]
    rw [e]
    have h2' : optUn m (str% "currencies") (setOf isStr) = true := (optUn_map h2).2 fun _ _ => setOf_ofSet ho _
    have h3' : optUn m (str% "booking") isBooking = true := (optUn_map h3).2 fun _ _ => isBooking_name _
    simp [isOpen, reqUn_some h1, h2', h3', h4, h5, h6, isStr, variantNumbers, toleranceOf, Data.truthy]
  | price p =>
    have h1 : m.find (str% "cur") = some (.str p.cur) := by rw [g _ (by decide)]; simp [ofVariant, AMap.get]
    have h2 : m.find (str% "price") = some (ofPrice p.price) := by rw [g _ (by decide)]; simp [ofVariant, AMap.get]
    have e : (AMap.get (ofVariant ord (.price p)) (str% "dct")).getD .nil = .kw (str% "price") := by simp [ofVariant, AMap.get]
    rw [e]
    simp [reqUn_some h1, reqUn_some h2, isStr, isPrice_of, variantNumbers, toleranceOf]
  | custom c =>
    have h1 : m.find (str% "type") = some (.str c.type_) := by rw [g _ (by decide)]; simp [ofVariant, AMap.get]
    have h2 : m.find (str% "values") = some (.vec (c.values.map ofMeta)) := by rw [g _ (by decide)]; simp [ofVariant, AMap.get]
    have e : (AMap.get (ofVariant ord (.custom c)) (str% "dct")).getD .nil = .kw (str% "custom") := by simp [ofVariant, AMap.get]
    rw [e]
    simp only [variantNumbers, fits_list]
    simp [reqUn_some h1, reqUn_some h2, isStr, vectorOf_map, isMetavalue_ofMeta, toleranceOf]
  | _ =>
    simp [ofVariant, AMap.get, reqUn, g, isStr, variantNumbers, toleranceOf]

theorem valid_raw {ord : List Data → List Data} (ho : IsOrder ord) (d : Raw.Directive) :
    validDct true (ofDirective ord d) = true ↔ NumbersFit d := by
  have h1 := valid_split ho (raw := true) (pre := optEntry (str% "span") d.span ofSpan) (var := ofVariant ord d.variant) (date := d.date)
    (tags := d.tags) (links := d.links) (md := d.metadata)
    (by rintro k (rfl | rfl | rfl | rfl) <;> simp [get_optEntry])
    (by rintro k (rfl | rfl | rfl) <;> cases d.variant <;> simp [ofVariant, get_append, get_optEntry, AMap.get])
  refine h1.trans ?_
  rw [kindOk_of ho ?_ _ fun _ _ => rfl, NumbersFit, fits_append, and_assoc]
  intro k hk
  simp only [List.mem_cons, List.not_mem_nil, or_false, not_or] at hk
  obtain ⟨a, b, c, d, e, f⟩ := hk
  simp [get_append, get_optEntry, AMap.get, Ne.symm a, Ne.symm c, Ne.symm d, Ne.symm e, Ne.symm f]

theorem valid_booked {ord : List Data → List Data} (ho : IsOrder ord) (d : Booked.Directive) :
    validDct false (ofBooked ord d) = true ↔ BookedNumbersFit d := by
  have h1 := valid_split ho (raw := false) (pre := [(str% "idx", ofNat d.idx)]) (var := ofBookedVariant ord d.variant) (date := d.date)
    (tags := d.tags) (links := d.links) (md := d.metadata)
    (by rintro k (rfl | rfl | rfl | rfl) <;> simp [AMap.get])
    (by rintro k (rfl | rfl | rfl) <;> cases d.variant <;> simp [ofBookedVariant, ofVariant, get_append, get_optEntry, AMap.get])
  refine h1.trans ?_
  rw [BookedNumbersFit, fits_append, and_assoc]
  refine and_congr_right fun _ => ?_
  have hp : ∀ k, k ∉ [str% "span", str% "idx", str% "date", str% "tags", str% "links", str% "metadata"] →
      AMap.get ([(str% "idx", ofNat d.idx)] ++ [(str% "date", Data.date d.date)] ++ optEntry (str% "tags") d.tags (ofSet ord) ++
        optEntry (str% "links") d.links (ofSet ord) ++ optEntry (str% "metadata") d.metadata ofMetadata) k = none := by
    intro k hk
    simp only [List.mem_cons, List.not_mem_nil, or_false, not_or] at hk
    obtain ⟨a, b, c, d, e, f⟩ := hk
    simp [get_append, get_optEntry, AMap.get, Ne.symm b, Ne.symm c, Ne.symm d, Ne.symm e, Ne.symm f]
  cases hv : d.variant with
  | transaction t =>
    generalize [(str% "idx", ofNat d.idx)] ++ [(str% "date", Data.date d.date)] ++ optEntry (str% "tags") d.tags (ofSet ord) ++
        optEntry (str% "links") d.links (ofSet ord) ++ optEntry (str% "metadata") d.metadata ofMetadata = pre at hp
    have g (k : Str) (hk : k ∉ [str% "span", str% "idx", str% "date", str% "tags", str% "links", str% "metadata"]) :
        (Data.map (pre ++ ofBookedVariant ord (.transaction t))).find k = AMap.get (ofBookedVariant ord (.transaction t)) k := by
      simp [Data.find, get_append, hp k hk]
    have e : (Data.map (pre ++ ofBookedVariant ord (.transaction t))).get (str% "dct") = .kw (str% "txn") := by
      simp [Data.get, get_append, hp _ (show str% "dct" ∉ _ by decide), ofBookedVariant, AMap.get]
    unfold kindOk
    rw [e]
    generalize Data.map (pre ++ ofBookedVariant ord (.transaction t)) = m at g
    have h1 : m.find (str% "flag") = some (.str t.flag) := by
      rw [g _ (by decide)]; simp [ofBookedVariant, get_append, AMap.get]
    have h2 : m.find (str% "payee") = t.payee.map .str := by
      rw [g _ (by decide)]; simp [ofBookedVariant, get_append, get_optEntry, AMap.get]
    have h3 : m.find (str% "narration") = t.narration.map .str := by
      rw [g _ (by decide)]; simp [ofBookedVariant, get_append, get_optEntry, AMap.get]
    have h4 : m.find (str% "postings") = some (.vec (t.postings.map (ofBookedPosting ord))) := by
      rw [g _ (by decide)]; simp [ofBookedVariant, get_append, get_optEntry, AMap.get]
    have h5 : optUn m (str% "postings") (vectorOf isBookedPosting) = vectorOf isBookedPosting (.vec (t.postings.map (ofBookedPosting ord))) := by
      simp [optUn, h4]
    simp only [if_true, isTxn, Bool.and_eq_true, reqUn_some h1, optUn_map h2, optUn_map h3, h5, vectorOf_map, isBookedPosting_of ho,
      bookedVariantNumbers, fits_list, bookedToleranceOf, Bool.false_eq_true, if_false]
    simp [isStr]
  | price p => exact kindOk_of ho hp (.price p) (by simp)
  | balance b => exact kindOk_of ho hp (.balance b.raw) (by simp)
  | opn o => exact kindOk_of ho hp (.opn o) (by simp)
  | close c => exact kindOk_of ho hp (.close c) (by simp)
  | commodity c => exact kindOk_of ho hp (.commodity c) (by simp)
  | pad p => exact kindOk_of ho hp (.pad p) (by simp)
  | document x => exact kindOk_of ho hp (.document x) (by simp)
  | note n => exact kindOk_of ho hp (.note n) (by simp)
  | event e => exact kindOk_of ho hp (.event e) (by simp)
  | query q => exact kindOk_of ho hp (.query q) (by simp)
  | custom c => exact kindOk_of ho hp (.custom c) (by simp)

end Clj
end Limabean
