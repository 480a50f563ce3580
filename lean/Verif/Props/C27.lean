/-
C27: what the server writes it reads back: metadata values, spans, and whole directives.
-/
import Verif.Proofs.WireLemmas
import Verif.Spec.Wire
import Verif.Props.Examples

namespace Limabean
namespace Wire

open Json Spec

set_option linter.unusedSimpArgs false

theorem borrowable_iff {s : Str} : borrowable s = true ↔ PlainName s := by
  unfold borrowable PlainName
  rw [List.all_eq_true]
  refine forall_congr' fun c => forall_congr' fun _ => ?_
  unfold escaped
  by_cases h1 : c = '"'
  · simp [h1]
  · by_cases h2 : c = '\\'
    · simp [h2]
    · simp [h1, h2]

theorem validDate_iff {d : Date} : validDate d = true ↔ CalendarDate d := by
  obtain ⟨y, m, dd⟩ := d
  simp only [validDate, decide_eq_true_eq, CalendarDate]
  refine and_congr_right fun _ => and_congr_right fun h1 => and_congr_right fun h2 => and_congr_right fun _ => ?_
  have : m = 1 ∨ m = 2 ∨ m = 3 ∨ m = 4 ∨ m = 5 ∨ m = 6 ∨ m = 7 ∨ m = 8 ∨ m = 9 ∨ m = 10 ∨ m = 11 ∨ m = 12 := by omega
  rcases this with h | h | h | h | h | h | h | h | h | h | h | h <;> subst h <;> simp [monthDays]

theorem toRef_str {s : Str} (h : PlainName s) : toRef (.str s) = some s := by
  simp [toRef, borrowable_iff.2 h]

theorem decMeta_encMeta {v : MetaValue} (h : MetaOk v) : decMeta (encMeta v) = some v := by
  cases v with
  | date d =>
    have : toRef (.str (fmtDate d)) = some (fmtDate d) := by simp [toRef, fmtDate_borrowable]
    simp [decMeta, encMeta, this, parseDate_fmtDate (validDate_iff.2 h)]
  | _ => simp_all [decMeta, encMeta, MetaOk, toRef_str, toStr, Json.toBool, toDec]

theorem decSet_encSet {l : List Str} (h : NamesOk l) : decSet (encSet l) = some l := by
  have e : toList toRef (encSet l) = some l := all_map Json.str toRef l fun t ht => toRef_str (h.2 t ht)
  rw [decSet, e, Option.map_some, h.1.dedup]

theorem foldl_insert {α : Type} (l m : List (Str × α)) (h : ((m ++ l).map Prod.fst).Nodup) :
    l.foldl (fun m p => AMap.set m p.1 p.2) m = m ++ l := by
  induction l generalizing m with
  | nil => simp
  | cons p l ih =>
    have e : AMap.set m p.1 p.2 = m ++ [p] := by
      have hn : p.1 ∉ m.map Prod.fst := by
        intro hm
        simp only [List.map_append, List.map_cons, List.nodup_append, List.mem_cons] at h
        exact h.2.2 _ hm _ (.inl rfl) rfl
      clear h ih
      induction m with
      | nil => rfl
      | cons q m ih =>
        simp only [List.map_cons, List.mem_cons, not_or] at hn
        obtain ⟨a, b⟩ := q
        rw [AMap.set, if_neg (Ne.symm hn.1), ih hn.2]
        rfl
    rw [List.foldl_cons, e, ih _ (by simpa using h)]
    simp

theorem _root_.Limabean.Json.inserted_nodup {α : Type} {l : List (Str × α)} (h : (l.map Prod.fst).Nodup) : Json.inserted l = l := by
  simpa [Json.inserted] using foldl_insert l [] (by simpa using h)

theorem decMetadata_encMetadata {l : List (Str × MetaValue)} (h : EntriesOk l) :
    decMetadata (encMetadata l) = some l := by
  unfold decMetadata encMetadata toMap
  dsimp only
  rw [all_map (fun p : Str × MetaValue => (p.1, encMeta p.2)) _ l fun kv hkv => by
    simp [borrowable_iff.2 (h.2 kv hkv).1, decMeta_encMeta (h.2 kv hkv).2], Option.map_some, Json.inserted_nodup h.1]

macro "wire_vals" : tactic =>
  `(tactic| simp [vals_append, vals_cons, vals_nil, vals_entry])

theorem decCostSpec_encCostSpec {c : Raw.CostSpec} (h1 : ∀ x ∈ c.cur, PlainName x) (h2 : ∀ x ∈ c.date, CalendarDate x) :
    decCostSpec (encCostSpec c) = some c := by
  unfold decCostSpec encCostSpec
  have hm : dfltFalse (entry (str% "per-unit") c.perUnit .num ++ entry (str% "total") c.total .num ++
    entry (str% "cur") c.cur .str ++ entry (str% "date") c.date encDate ++ entry (str% "label") c.label .str ++
    entry (str% "merge") (if c.merge then some () else none) (fun _ => .bool true)) (str% "merge") = some c.merge := by
    unfold dfltFalse field
    wire_vals
    cases c.merge <;> rfl
  simp only
  rw [opt_of_vals (k := str% "per-unit") (x := c.perUnit) (enc := .num) (by wire_vals) (by simp [toDec]) (by simp),
    opt_of_vals (k := str% "total") (x := c.total) (enc := .num) (by wire_vals) (by simp [toDec]) (by simp),
    opt_of_vals (k := str% "cur") (x := c.cur) (enc := .str) (by wire_vals) (fun a ha => toRef_str (h1 a ha)) (by simp),
    opt_of_vals (k := str% "date") (x := c.date) (enc := encDate) (by wire_vals)
      (fun a ha => decDate_encDate (validDate_iff.2 (h2 a ha))) (by simp [encDate]),
    opt_of_vals (k := str% "label") (x := c.label) (enc := .str) (by wire_vals) (by simp [toStr]) (by simp), hm]
  rfl

theorem decPriceSpec_encPriceSpec {c : Raw.PriceSpec} (h1 : ∀ x ∈ c.cur, PlainName x) :
    decPriceSpec (encPriceSpec c) = some c := by
  unfold decPriceSpec encPriceSpec
  simp only
  rw [opt_of_vals (k := str% "per-unit") (x := c.perUnit) (enc := .num) (by wire_vals) (by simp [toDec]) (by simp),
    opt_of_vals (k := str% "total") (x := c.total) (enc := .num) (by wire_vals) (by simp [toDec]) (by simp),
    opt_of_vals (k := str% "cur") (x := c.cur) (enc := .str) (by wire_vals) (fun a ha => toRef_str (h1 a ha)) (by simp)]
  rfl

theorem decPrice_encPrice {p : Raw.Price} (h : PlainName p.cur) : decPrice (encPrice p) = some p := by
  unfold decPrice encPrice
  simp only
  rw [req_of_vals (a := p.perUnit) (j := .num p.perUnit) (by wire_vals) (by rfl),
    opt_of_vals (k := str% "total") (dec := toDec) (x := p.total) (enc := .num) (by wire_vals) (by simp [toDec]) (by simp),
    req_of_vals (a := p.cur) (j := .str p.cur) (by wire_vals) (toRef_str h)]
  rfl

theorem decPosting_encPosting {p : Raw.PostingSpec} (h : PostingOk p) : decPosting (encPosting p) = some p := by
  unfold decPosting encPosting
  simp only
  rw [opt_of_vals (k := str% "span") (x := p.span) (enc := encSpan) (by wire_vals) (by simp [decSpan_encSpan]) (by simp [encSpan]),
    opt_of_vals (k := str% "flag") (x := p.flag) (enc := .str) (by wire_vals) (by simp [toStr]) (by simp),
    req_of_vals (k := str% "acc") (a := p.acc) (j := .str p.acc) (by wire_vals) (toRef_str h.acc),
    opt_of_vals (k := str% "units") (x := p.units) (enc := .num) (by wire_vals) (by simp [toDec]) (by simp),
    opt_of_vals (k := str% "cur") (x := p.cur) (enc := .str) (by wire_vals) (fun a ha => toRef_str (h.cur a ha)) (by simp),
    opt_of_vals (k := str% "cost-spec") (x := p.costSpec) (enc := encCostSpec) (by wire_vals)
      (fun a ha => decCostSpec_encCostSpec (h.cost a ha).1 (h.cost a ha).2) (by simp [encCostSpec]),
    opt_of_vals (k := str% "price-spec") (x := p.priceSpec) (enc := encPriceSpec) (by wire_vals)
      (fun a ha => decPriceSpec_encPriceSpec (h.price a ha)) (by simp [encPriceSpec]),
    opt_of_vals (k := str% "tags") (x := p.tags) (enc := encSet) (by wire_vals)
      (fun a ha => decSet_encSet (h.attached.tags a ha)) (by simp [encSet]),
    opt_of_vals (k := str% "links") (x := p.links) (enc := encSet) (by wire_vals)
      (fun a ha => decSet_encSet (h.attached.links a ha)) (by simp [encSet]),
    opt_of_vals (k := str% "metadata") (x := p.metadata) (enc := encMetadata) (by wire_vals)
      (fun a ha => decMetadata_encMetadata (h.attached.metadata a ha)) (by simp [encMetadata])]
  rfl

theorem req_dct {l : List (Str × Json)} {k : Str} (h : vals (str% "dct") l = [.str k]) :
    req l (str% "dct") toStr = some k := req_of_vals h rfl

theorem decVariant_encVariant {v : Raw.Variant} (h : VariantOk v) {pre : List (Str × Json)}
    (hp : ∀ k ∈ [str% "dct", str% "flag", str% "payee", str% "narration", str% "postings", str% "cur", str% "price",
      str% "acc", str% "units", str% "tolerance", str% "currencies", str% "booking", str% "source", str% "path",
      str% "comment", str% "type", str% "description", str% "name", str% "content", str% "values"], vals k pre = []) :
    decVariant (pre ++ encVariant v) = some v := by
  simp only [List.mem_cons, List.not_mem_nil, or_false, forall_eq_or_imp, forall_eq] at hp
  obtain ⟨p1, p2, p3, p4, p5, p6, p7, p8, p9, p10, p11, p12, p13, p14, p15, p16, p17, p18, p19, p20⟩ := hp
  unfold decVariant
  cases v with
  | transaction t =>
    rw [req_dct (k := str% "txn") (by simp [encVariant, vals_append, vals_cons, vals_nil, vals_entry, p1])]
    simp only [↓reduceIte, encVariant]
    rw [req_of_vals (k := str% "flag") (a := t.flag) (j := .str t.flag) (by
          simp [vals_append, vals_cons, vals_nil, vals_entry, p2]) rfl,
      opt_of_vals (k := str% "payee") (x := t.payee) (enc := .str) (by
          simp [vals_append, vals_cons, vals_nil, vals_entry, p3]) (by simp [toStr]) (by simp),
      opt_of_vals (k := str% "narration") (x := t.narration) (enc := .str) (by
          simp [vals_append, vals_cons, vals_nil, vals_entry, p4]) (by simp [toStr]) (by simp),
      req_of_vals (k := str% "postings") (a := t.postings) (j := .arr (t.postings.map encPosting)) (by
          simp [vals_append, vals_cons, vals_nil, vals_entry, p5])
        (all_map _ _ _ fun q hq => decPosting_encPosting (h q hq))]
    rfl
  | price p =>
    rw [req_dct (k := str% "price") (by simp [encVariant, vals_append, vals_cons, vals_nil, vals_entry, p1])]
    simp only [encVariant]
    rw [req_of_vals (k := str% "cur") (a := p.cur) (j := .str p.cur) (by
          simp [vals_append, vals_cons, vals_nil, p6]) (toRef_str h.1),
      req_of_vals (k := str% "price") (a := p.price) (j := encPrice p.price) (by
          simp [vals_append, vals_cons, vals_nil, p7]) (decPrice_encPrice h.2)]
    rfl
  | balance b =>
    rw [req_dct (k := str% "balance") (by simp [encVariant, vals_append, vals_cons, vals_nil, vals_entry, p1])]
    simp only [encVariant]
    rw [req_of_vals (k := str% "acc") (a := b.acc) (j := .str b.acc) (by
          simp [vals_append, vals_cons, vals_nil, vals_entry, p8]) (toRef_str h.1),
      req_of_vals (k := str% "units") (a := b.units) (j := .num b.units) (by
          simp [vals_append, vals_cons, vals_nil, vals_entry, p9]) rfl,
      req_of_vals (k := str% "cur") (a := b.cur) (j := .str b.cur) (by
          simp [vals_append, vals_cons, vals_nil, vals_entry, p6]) (toRef_str h.2),
      opt_of_vals (k := str% "tolerance") (x := b.tolerance) (enc := .num) (by
          simp [vals_append, vals_cons, vals_nil, vals_entry, p10]) (by simp [toDec]) (by simp)]
    rfl
  | opn o =>
    rw [req_dct (k := str% "open") (by simp [encVariant, vals_append, vals_cons, vals_nil, vals_entry, p1])]
    simp only [encVariant]
    rw [req_of_vals (k := str% "acc") (a := o.acc) (j := .str o.acc) (by
          simp [vals_append, vals_cons, vals_nil, vals_entry, p8]) (toRef_str h.1),
      opt_of_vals (k := str% "currencies") (x := o.currencies) (enc := encSet) (by
          simp [vals_append, vals_cons, vals_nil, vals_entry, p11]) (fun a ha => decSet_encSet (h.2 a ha)) (by simp [encSet]),
      opt_of_vals (k := str% "booking") (x := o.booking) (enc := encBooking) (by
          simp [vals_append, vals_cons, vals_nil, vals_entry, p12]) (by simp [decBooking_encBooking]) encBooking_ne_null]
    rfl
  | close c =>
    rw [req_dct (k := str% "close") (by simp [encVariant, vals_append, vals_cons, vals_nil, vals_entry, p1])]
    simp only [encVariant]
    rw [req_of_vals (k := str% "acc") (a := c.acc) (j := .str c.acc) (by
          simp [vals_append, vals_cons, vals_nil, p8]) (toRef_str h)]
    rfl
  | commodity c =>
    rw [req_dct (k := str% "commodity") (by simp [encVariant, vals_append, vals_cons, vals_nil, vals_entry, p1])]
    simp only [encVariant]
    rw [req_of_vals (k := str% "cur") (a := c.cur) (j := .str c.cur) (by
          simp [vals_append, vals_cons, vals_nil, p6]) (toRef_str h)]
    rfl
  | pad p =>
    rw [req_dct (k := str% "pad") (by simp [encVariant, vals_append, vals_cons, vals_nil, vals_entry, p1])]
    simp only [encVariant]
    rw [req_of_vals (k := str% "acc") (a := p.acc) (j := .str p.acc) (by
          simp [vals_append, vals_cons, vals_nil, p8]) (toRef_str h.1),
      req_of_vals (k := str% "source") (a := p.source) (j := .str p.source) (by
          simp [vals_append, vals_cons, vals_nil, p13]) (toRef_str h.2)]
    rfl
  | document d =>
    rw [req_dct (k := str% "document") (by simp [encVariant, vals_append, vals_cons, vals_nil, vals_entry, p1])]
    simp only [encVariant]
    rw [req_of_vals (k := str% "acc") (a := d.acc) (j := .str d.acc) (by
          simp [vals_append, vals_cons, vals_nil, p8]) (toRef_str h),
      req_of_vals (k := str% "path") (a := d.path) (j := .str d.path) (by
          simp [vals_append, vals_cons, vals_nil, p14]) rfl]
    rfl
  | note n =>
    rw [req_dct (k := str% "note") (by simp [encVariant, vals_append, vals_cons, vals_nil, vals_entry, p1])]
    simp only [encVariant]
    rw [req_of_vals (k := str% "acc") (a := n.acc) (j := .str n.acc) (by
          simp [vals_append, vals_cons, vals_nil, p8]) (toRef_str h),
      req_of_vals (k := str% "comment") (a := n.comment) (j := .str n.comment) (by
          simp [vals_append, vals_cons, vals_nil, p15]) rfl]
    rfl
  | event e =>
    rw [req_dct (k := str% "event") (by simp [encVariant, vals_append, vals_cons, vals_nil, vals_entry, p1])]
    simp only [encVariant]
    rw [req_of_vals (k := str% "type") (a := e.type_) (j := .str e.type_) (by
          simp [vals_append, vals_cons, vals_nil, p16]) rfl,
      req_of_vals (k := str% "description") (a := e.description) (j := .str e.description) (by
          simp [vals_append, vals_cons, vals_nil, p17]) rfl]
    rfl
  | query q =>
    rw [req_dct (k := str% "query") (by simp [encVariant, vals_append, vals_cons, vals_nil, vals_entry, p1])]
    simp only [encVariant]
    rw [req_of_vals (k := str% "name") (a := q.name) (j := .str q.name) (by
          simp [vals_append, vals_cons, vals_nil, p18]) rfl,
      req_of_vals (k := str% "content") (a := q.content) (j := .str q.content) (by
          simp [vals_append, vals_cons, vals_nil, p19]) rfl]
    rfl
  | custom c =>
    rw [req_dct (k := str% "custom") (by simp [encVariant, vals_append, vals_cons, vals_nil, vals_entry, p1])]
    simp only [encVariant]
    rw [req_of_vals (k := str% "type") (a := c.type_) (j := .str c.type_) (by
          simp [vals_append, vals_cons, vals_nil, p16]) rfl,
      req_of_vals (k := str% "values") (a := c.values) (j := .arr (c.values.map encMeta)) (by
          simp [vals_append, vals_cons, vals_nil, p20]) (all_map _ _ _ fun v hv => decMeta_encMeta (h v hv))]
    rfl

/-- The keys of a variant are none of the keys of the directive around it. -/
theorem vals_encVariant (v : Raw.Variant) {k : Str}
    (hk : k ∈ [str% "span", str% "date", str% "tags", str% "links", str% "metadata"]) : vals k (encVariant v) = [] := by
  simp only [List.mem_cons, List.not_mem_nil, or_false] at hk
  rcases hk with rfl | rfl | rfl | rfl | rfl <;> cases v <;>
    simp [encVariant, vals_append, vals_cons, vals_nil, vals_entry]

theorem decDirective_encDirective {d : Raw.Directive} (h : DirectiveOk d) : decDirective (encDirective d) = some d := by
  unfold decDirective encDirective
  simp only
  have hv : ∀ k ∈ [str% "span", str% "date", str% "tags", str% "links", str% "metadata"],
      vals k (encVariant d.variant) = [] := fun k hk => vals_encVariant _ hk
  simp only [List.mem_cons, List.not_mem_nil, or_false, forall_eq_or_imp, forall_eq] at hv
  obtain ⟨v1, v2, v3, v4, v5⟩ := hv
  rw [opt_of_vals (k := str% "span") (x := d.span) (enc := encSpan) (by
        simp [vals_append, vals_cons, vals_nil, vals_entry, v1]) (by simp [decSpan_encSpan]) (by simp [encSpan]),
    req_of_vals (k := str% "date") (a := d.date) (j := encDate d.date) (by
        simp [vals_append, vals_cons, vals_nil, vals_entry, v2]) (decDate_encDate (validDate_iff.2 h.date)),
    opt_of_vals (k := str% "tags") (x := d.tags) (enc := encSet) (by
        simp [vals_append, vals_cons, vals_nil, vals_entry, v3])
      (fun a ha => decSet_encSet (h.attached.tags a ha)) (by simp [encSet]),
    opt_of_vals (k := str% "links") (x := d.links) (enc := encSet) (by
        simp [vals_append, vals_cons, vals_nil, vals_entry, v4])
      (fun a ha => decSet_encSet (h.attached.links a ha)) (by simp [encSet]),
    opt_of_vals (k := str% "metadata") (x := d.metadata) (enc := encMetadata) (by
        simp [vals_append, vals_cons, vals_nil, vals_entry, v5])
      (fun a ha => decMetadata_encMetadata (h.attached.metadata a ha)) (by simp [encMetadata]),
    decVariant_encVariant h.variant (by
      simp [vals_append, vals_cons, vals_nil, vals_entry])]
  rfl

end Wire

/-- C27: a metadata value that a beanfile can contain survives writing and reading; an amount is also read with its two
keys in the other order; spans survive. -/
theorem C27_meta_roundtrip :
    (∀ v, Spec.MetaOk v → Wire.decMeta (Wire.encMeta v) = some v) ∧
    (∀ u c, Spec.PlainName c →
      Wire.decMeta (.obj [(str% "cur", .str c), (str% "units", .num u)]) = some (.amount u c)) ∧
    (∀ s, Wire.decSpan (Wire.encSpan s) = some s) :=
  ⟨fun _ h => Wire.decMeta_encMeta h,
   fun u c h => by simp [Wire.decMeta, Wire.toRef_str h, Json.toDec],
   Wire.decSpan_encSpan⟩

/-- C27: a whole directive that a beanfile can contain survives writing and reading, with all its parts. -/
theorem C27_directive_roundtrip (d : Raw.Directive) (h : Spec.DirectiveOk d) :
    Wire.decDirective (Wire.encDirective d) = some d := Wire.decDirective_encDirective h

/-- The condition on names is needed: a name with a quote could not be read back. -/
theorem C27_names_plain : ¬ ∀ v, Wire.decMeta (Wire.encMeta v) = some v := by
  intro h
  have := h (.tag ['"'])
  simp [Wire.encMeta, Wire.decMeta, Json.toRef, Json.borrowable, Json.escaped] at this

/-- A transaction with metadata, a cost and a price is such a directive. -/
theorem directiveOk_examples : Spec.DirectiveOk Ex.sale ∧ Spec.DirectiveOk Ex.lunch := by
  have pn : ∀ s : Str, Json.borrowable s = true → Spec.PlainName s := fun s => Wire.borrowable_iff.1
  constructor
  · refine ⟨Wire.validDate_iff.1 (by decide), ⟨by simp [Ex.sale], by simp [Ex.sale], by simp [Ex.sale]⟩, ?_⟩
    intro p hp
    simp only [List.mem_cons, List.not_mem_nil, or_false] at hp
    rcases hp with rfl | rfl
    · refine ⟨pn _ (by decide), ?_, ?_, ?_, ⟨by simp, by simp, by simp⟩⟩
      · intro c hc; cases hc; exact pn _ (by decide)
      · intro c hc; cases hc; exact ⟨by simp, by simp⟩
      · intro c hc x hx; cases hc; cases hx; exact pn _ (by decide)
    · refine ⟨pn _ (by decide), ?_, by simp, by simp, ⟨by simp, by simp, by simp⟩⟩
      intro c hc; cases hc; exact pn _ (by decide)
  · refine ⟨Wire.validDate_iff.1 (by decide), ⟨?_, by simp [Ex.lunch], by simp [Ex.lunch]⟩, ?_⟩
    · rintro l hl; cases hl; refine ⟨by decide, fun t ht => ?_⟩; simp only [List.mem_cons, List.not_mem_nil, or_false] at ht; subst ht
      exact pn _ (by decide)
    intro p hp
    simp only [List.mem_cons, List.not_mem_nil, or_false] at hp
    rcases hp with rfl | rfl
    · refine ⟨pn _ (by decide), ?_, by simp, by simp, ⟨by simp, by simp, ?_⟩⟩
      · intro c hc; cases hc; exact pn _ (by decide)
      · intro l hl; cases hl; refine ⟨by decide, fun kv hkv => ?_⟩; simp only [List.mem_cons, List.not_mem_nil, or_false] at hkv; subst hkv
        exact ⟨pn _ (by decide), trivial⟩
    · exact ⟨pn _ (by decide), by simp, by simp, by simp, ⟨by simp, by simp, by simp⟩⟩

end Limabean
