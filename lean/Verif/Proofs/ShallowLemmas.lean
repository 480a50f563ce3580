/-
The depth of the data which the front end receives and sends.
-/
import Verif.Spec.ClientReports
import Verif.Proofs.DepthLemmas
import Verif.Proofs.DecodeLemmas
import Verif.Clj.Resolve
import Verif.Proofs.DecodedLemmas

namespace Limabean
namespace Clj

open Spec

variable {ord : List Data → List Data}

theorem depth_map_le {n : Nat} {l : List (Str × Data)} (h : ∀ x ∈ l, levels x.2 ≤ n) : levels (.map l) ≤ n + 1 := by
  rw [levels]
  have := depthEntries_le.2 h
  omega

theorem depth_vec_le {n : Nat} {l : List Data} (h : ∀ x ∈ l, levels x ≤ n) : levels (.vec l) ≤ n + 1 := by
  rw [levels]
  have := depthAll_le.2 h
  omega

theorem depth_set_le {n : Nat} {l : List Data} (h : ∀ x ∈ l, levels x ≤ n) : levels (.set l) ≤ n + 1 := by
  rw [levels]
  have := depthAll_le.2 h
  omega

theorem depthEntries_append (l l' : List (Str × Data)) : levelsEntries (l ++ l') = max (levelsEntries l) (levelsEntries l') := by
  induction l with
  | nil => simp [levelsEntries]
  | cons x l ih => obtain ⟨k, x⟩ := x; simp only [List.cons_append, levelsEntries, ih]; omega

theorem depth_optEntry {α : Type} {n : Nat} (k : Str) {x : Option α} {f : α → Data} (h : ∀ a, levels (f a) ≤ n) :
    levelsEntries (optEntry k x f) ≤ n := by
  cases x with
  | none => simp [optEntry, levelsEntries]
  | some a => simpa [optEntry, levelsEntries] using h a

theorem depth_ofMeta (m : MetaValue) : levels (ofMeta m) ≤ 1 := by
  cases m <;> simp [ofMeta, levels, levelsEntries]

theorem depth_ofSpan (s : Span) : levels (ofSpan s) = 1 := by simp [ofSpan, ofNat, levels, levelsAll]

theorem depth_ofSet (hs : IsOrder ord) (l : List Str) : levels (ofSet ord l) ≤ 1 := by
  refine depth_set_le (n := 0) fun x hx => ?_
  obtain ⟨s, -, rfl⟩ := List.mem_map.1 ((hs _).mem_iff.1 hx)
  simp [levels]

theorem depth_ofMetadata (l : List (Str × MetaValue)) : levels (ofMetadata l) ≤ 2 := by
  refine depth_map_le fun x hx => ?_
  obtain ⟨p, -, rfl⟩ := List.mem_map.1 hx
  exact depth_ofMeta p.2

theorem depth_ofCostSpec (c : Raw.CostSpec) : levels (ofCostSpec c) ≤ 1 := by
  simp only [ofCostSpec, levels, depthEntries_append]
  have h1 := depth_optEntry (n := 0) (str% "per-unit") (x := c.perUnit) (f := Data.num) (by simp [levels])
  have h2 := depth_optEntry (n := 0) (str% "total") (x := c.total) (f := Data.num) (by simp [levels])
  have h3 := depth_optEntry (n := 0) (str% "cur") (x := c.cur) (f := Data.str) (by simp [levels])
  have h4 := depth_optEntry (n := 0) (str% "date") (x := c.date) (f := Data.date) (by simp [levels])
  have h5 := depth_optEntry (n := 0) (str% "label") (x := c.label) (f := Data.str) (by simp [levels])
  have h6 := depth_optEntry (n := 0) (str% "merge") (x := if c.merge then some () else none) (f := fun _ => Data.bool true) (by simp [levels])
  omega

theorem depth_ofPriceSpec (p : Raw.PriceSpec) : levels (ofPriceSpec p) ≤ 1 := by
  simp only [ofPriceSpec, levels, depthEntries_append]
  have h1 := depth_optEntry (n := 0) (str% "per-unit") (x := p.perUnit) (f := Data.num) (by simp [levels])
  have h2 := depth_optEntry (n := 0) (str% "total") (x := p.total) (f := Data.num) (by simp [levels])
  have h3 := depth_optEntry (n := 0) (str% "cur") (x := p.cur) (f := Data.str) (by simp [levels])
  omega

theorem depth_ofPrice (p : Raw.Price) : levels (ofPrice p) ≤ 1 := by
  simp only [ofPrice, levels, depthEntries_append, levelsEntries]
  have h2 := depth_optEntry (n := 0) (str% "total") (x := p.total) (f := Data.num) (by simp [levels])
  omega

theorem depth_ofPosting (hs : IsOrder ord) (p : Raw.PostingSpec) : levels (ofPosting ord p) ≤ 3 := by
  simp only [ofPosting, levels, depthEntries_append, levelsEntries]
  have h1 := depth_optEntry (n := 1) (str% "span") (x := p.span) (f := ofSpan) (fun s => (depth_ofSpan s).le)
  have h2 := depth_optEntry (n := 0) (str% "flag") (x := p.flag) (f := Data.str) (by simp [levels])
  have h3 := depth_optEntry (n := 0) (str% "units") (x := p.units) (f := Data.num) (by simp [levels])
  have h4 := depth_optEntry (n := 0) (str% "cur") (x := p.cur) (f := Data.str) (by simp [levels])
  have h5 := depth_optEntry (n := 1) (str% "cost-spec") (x := p.costSpec) (f := ofCostSpec) depth_ofCostSpec
  have h6 := depth_optEntry (n := 1) (str% "price-spec") (x := p.priceSpec) (f := ofPriceSpec) depth_ofPriceSpec
  have h7 := depth_optEntry (n := 1) (str% "tags") (x := p.tags) (f := ofSet ord) (depth_ofSet hs)
  have h8 := depth_optEntry (n := 1) (str% "links") (x := p.links) (f := ofSet ord) (depth_ofSet hs)
  have h9 := depth_optEntry (n := 2) (str% "metadata") (x := p.metadata) (f := ofMetadata) depth_ofMetadata
  omega

theorem depth_ofVariant (hs : IsOrder ord) (v : Raw.Variant) : levelsEntries (ofVariant ord v) ≤ 4 := by
  cases v with
  | transaction t =>
    simp only [ofVariant, depthEntries_append, levelsEntries, levels]
    have h1 := depth_optEntry (n := 0) (str% "payee") (x := t.payee) (f := Data.str) (by simp [levels])
    have h2 := depth_optEntry (n := 0) (str% "narration") (x := t.narration) (f := Data.str) (by simp [levels])
    have h3 : levelsAll (t.postings.map (ofPosting ord)) ≤ 3 := depthAll_le.2 (by
      intro x hx
      obtain ⟨p, -, rfl⟩ := List.mem_map.1 hx
      exact depth_ofPosting hs p)
    omega
  | price p =>
    have := depth_ofPrice p.price
    simp only [ofVariant, levelsEntries, levels]
    omega
  | balance b =>
    simp only [ofVariant, depthEntries_append, levelsEntries, levels]
    have h1 := depth_optEntry (n := 0) (str% "tolerance") (x := b.tolerance) (f := Data.num) (by simp [levels])
    omega
  | opn o =>
    simp only [ofVariant, depthEntries_append, levelsEntries, levels]
    have h1 := depth_optEntry (n := 1) (str% "currencies") (x := o.currencies) (f := ofSet ord) (depth_ofSet hs)
    have h2 := depth_optEntry (n := 0) (str% "booking") (x := o.booking) (f := fun b => Data.kw (bookingName b)) (by simp [levels])
    omega
  | custom c =>
    have h3 : levelsAll (c.values.map ofMeta) ≤ 1 := depthAll_le.2 (by
      intro x hx
      obtain ⟨p, -, rfl⟩ := List.mem_map.1 hx
      exact depth_ofMeta p)
    simp only [ofVariant, levelsEntries, levels]
    omega
  | _ => simp [ofVariant, levelsEntries, levels]

/-- A parsed directive is nested at most five levels: directive, postings, posting, metadata, value. -/
theorem depth_ofDirective (hs : IsOrder ord) (d : Raw.Directive) : levels (ofDirective ord d) ≤ 5 := by
  simp only [ofDirective, levels, depthEntries_append, levelsEntries]
  have h1 := depth_optEntry (n := 1) (str% "span") (x := d.span) (f := ofSpan) (fun s => (depth_ofSpan s).le)
  have h7 := depth_optEntry (n := 1) (str% "tags") (x := d.tags) (f := ofSet ord) (depth_ofSet hs)
  have h8 := depth_optEntry (n := 1) (str% "links") (x := d.links) (f := ofSet ord) (depth_ofSet hs)
  have h9 := depth_optEntry (n := 2) (str% "metadata") (x := d.metadata) (f := ofMetadata) depth_ofMetadata
  have := depth_ofVariant hs d.variant
  omega

/-- Parsed directives can be sent back. -/
theorem notTooDeep_parsed (hs : IsOrder ord) {α : Type} (l : List α) (f : α → Raw.Directive) :
    NotTooDeep (l.map fun d => ofDirective ord (f d)) := by
  intro x hx
  obtain ⟨d, -, rfl⟩ := List.mem_map.1 hx
  have := depth_ofDirective hs (f d)
  omega

theorem depth_ofSynthetics (l : List SyntheticSpan) : levels (.vec (l.map ofSynthetic)) ≤ 2 := by
  refine depth_vec_le fun x hx => ?_
  obtain ⟨s, -, rfl⟩ := List.mem_map.1 hx
  simp [ofSynthetic, levels, levelsEntries]

theorem depth_ofLabelled (x : Str × Span) : levels (ofLabelled x) = 2 := by
  simp [ofLabelled, levels, levelsAll, depth_ofSpan]

theorem depth_ofReport (r : Report) : levels (ofReport r) ≤ 4 := by
  have h : ∀ l : List (Str × Span), levels (.vec (l.map ofLabelled)) ≤ 3 := fun l => depth_vec_le fun x hx => by
    obtain ⟨s, -, rfl⟩ := List.mem_map.1 hx
    exact (depth_ofLabelled s).le
  simp only [ofReport, levels, depthEntries_append, levelsEntries, depth_ofSpan]
  have h1 := depth_optEntry (n := 3) (str% "contexts") (x := r.contexts) (f := fun l => .vec (l.map ofLabelled)) h
  have h2 := depth_optEntry (n := 3) (str% "related") (x := r.related) (f := fun l => .vec (l.map ofLabelled)) h
  have h3 := depth_optEntry (n := 0) (str% "annotation") (x := r.annotation) (f := Data.str) (by simp [levels])
  omega

theorem depth_amap_get {l : List (Str × Data)} {k : Str} {x : Data} (h : AMap.get l k = some x) : levels x ≤ levelsEntries l := by
  induction l with
  | nil => cases h
  | cons y l ih =>
    obtain ⟨k', y⟩ := y
    simp only [AMap.get] at h
    simp only [levelsEntries]
    split at h
    · cases h; omega
    · have := ih h; omega

theorem depth_get (m : Data) (k : Str) : levels (m.get k) ≤ levels m - 1 := by
  unfold Data.get
  split
  · rename_i l
    cases h : AMap.get l k with
    | none => simp [levels]
    | some x =>
      have := depth_amap_get h
      simp only [Option.getD_some, levels]
      omega
  · simp [levels]

theorem depth_nth (v i : Data) : levels (v.nth i) ≤ levels v - 1 := by
  unfold Data.nth
  split
  · rename_i l m
    split
    · cases h : l[m.toNat]? with
      | none => simp [levels]
      | some x =>
        have := depthAll_le.1 (Nat.le_refl (levelsAll l)) x (List.mem_of_getElem? h)
        simp only [Option.getD_some, levels]
        omega
    · simp [levels]
  · simp [levels]

theorem depth_or (a b : Data) : levels (a.or b) ≤ max (levels a) (levels b) := by
  unfold Data.or
  split <;> omega

theorem depth_amap_set (l : List (Str × Data)) (k : Str) (x : Data) : levelsEntries (AMap.set l k x) ≤ max (levelsEntries l) (levels x) := by
  induction l with
  | nil => simp [AMap.set, levelsEntries]
  | cons y l ih =>
    obtain ⟨k', y⟩ := y
    simp only [AMap.set]
    split <;> simp only [levelsEntries] <;> omega

theorem depth_assoc (m : Data) (k : Str) (x : Data) : levels (m.assoc k x) ≤ max (levels m) (levels x + 1) := by
  unfold Data.assoc
  split
  · rename_i l
    have := depth_amap_set l k x
    simp only [levels]
    omega
  · simp [levels, levelsEntries]
  · omega

theorem depth_spanOf (x : Data) : levels (spanOf x) ≤ levels x - 1 := by
  have h1 := depth_or (x.get (str% "span")) (x.get (str% "span-p"))
  have h2 := depth_get x (str% "span")
  have h3 := depth_get x (str% "span-p")
  unfold spanOf
  omega

theorem depth_describe {txt : Data → Str} {dct pst d : Data} (h : describe txt dct pst = some d) : levels d = 0 := by
  unfold describe at h
  simp only [Option.bind_eq_bind] at h
  obtain ⟨kind, h1, h2⟩ : ∃ kind, (if pst.truthy then some (Data.str (str% "posting"))
      else if dct.truthy then (dctName dct).map .str else some .nil) = some kind ∧
      (if (dct.get (str% "provenance")).truthy && ((pst.get (str% "span")).or (dct.get (str% "span"))).truthy then
        some (Data.str (strOf txt kind ++ str% ", modified by " ++ joinSpace txt (dct.get (str% "provenance")).elems))
      else some kind) = some d := by
    split at h
    · exact ⟨_, if_pos ‹_›, h⟩
    · rw [if_neg ‹_›]
      split at h
      · obtain ⟨kind, h1, h2⟩ := Option.bind_eq_some_iff.1 h
        exact ⟨kind, by rw [if_pos ‹_›]; exact h1, h2⟩
      · exact ⟨_, if_neg ‹_›, h⟩
  have hk : levels kind = 0 := by
    split at h1
    · cases h1; rfl
    · split at h1
      · obtain ⟨s, -, rfl⟩ := Option.map_eq_some_iff.1 h1
        rfl
      · cases h1; rfl
  split at h2
  · cases h2; rfl
  · cases h2; exact hk

theorem depth_located {txt : Data → Str} {idx raw : Data} {n : Nat} (hr : levels raw ≤ n) {l : Located}
    (h : resolveReportIdx txt idx raw = some l) : levels l.description = 0 ∧ levels l.span ≤ n ∧ levels l.context ≤ n + 1 := by
  unfold resolveReportIdx at h
  obtain ⟨d, h1, rfl⟩ := Option.map_eq_some_iff.1 h
  generalize hdct : raw.nth (idx.nth (.num ⟨0, 0⟩)) = dct at h1
  generalize hpst : (dct.get (str% "postings")).nth (idx.nth (.num ⟨1, 0⟩)) = pst at h1
  have h2 := depth_nth raw (idx.nth (.num ⟨0, 0⟩))
  rw [hdct] at h2
  have h3 := depth_nth (dct.get (str% "postings")) (idx.nth (.num ⟨1, 0⟩))
  rw [hpst] at h3
  have h4 := depth_get dct (str% "postings")
  have h5 := depth_spanOf dct
  have h6 := depth_spanOf pst
  have h7 := depth_or (spanOf pst) (spanOf dct)
  refine ⟨depth_describe h1, ?_, ?_⟩
  · dsimp only
    split
    · omega
    · simp [levels]
  · dsimp only
    split
    · simp only [levels, levelsAll]
      omega
    · simp [levels]

/-- A report which the client makes is hardly deeper than the directives. -/
theorem depth_resolved {txt : Data → Str} {report raw c : Data} {n : Nat} (hr : levels raw ≤ n)
    (h : resolveReportFromRaw txt report raw = some c) : levels c ≤ max (levels report) (n + 3) := by
  simp only [resolveReportFromRaw, Option.bind_eq_bind, Option.bind_eq_some_iff, Option.pure_def, Option.some.injEq] at h
  obtain ⟨l, h1, related, h2, rfl⟩ := h
  obtain ⟨h3, h4, h5⟩ := depth_located hr h1
  have h6 : levelsAll related ≤ n + 1 := by
    refine depthAll_le.2 fun x hx => ?_
    obtain ⟨j, -, hj⟩ := Wire.all_mem h2 x hx
    obtain ⟨l', h7, rfl⟩ := Option.map_eq_some_iff.1 hj
    obtain ⟨h8, h9, -⟩ := depth_located hr h7
    simp only [levels, levelsAll]
    omega
  have hcopy : ∀ (m : Data) (k : Str), levels (copyField report m k) ≤ max (levels m) (levels report - 1 + 1) := by
    intro m k
    unfold copyField
    split
    · have := depth_assoc m k (report.get k)
      have := depth_get report k
      omega
    · omega
  have hif : ∀ (b : Bool) (m : Data) (k : Str) (v : Data), levels (assocIf b m k v) ≤ max (levels m) (levels v + 1) := by
    intro b m k v
    unfold assocIf
    split
    · exact depth_assoc m k v
    · omega
  refine (hif _ _ _ _).trans ?_
  have h10 := hif l.context.truthy (((copyField report (copyField report (.map []) (str% "reason")) (str% "annotation")).assoc
    (str% "message") (.str (str% "invalid " ++ strOf txt l.description))).assoc (str% "span") l.span) (str% "context") l.context
  have h11 := depth_assoc ((copyField report (copyField report (.map []) (str% "reason")) (str% "annotation")).assoc
    (str% "message") (.str (str% "invalid " ++ strOf txt l.description))) (str% "span") l.span
  have h12 := depth_assoc (copyField report (copyField report (.map []) (str% "reason")) (str% "annotation"))
    (str% "message") (.str (str% "invalid " ++ strOf txt l.description))
  have h13 := hcopy (copyField report (.map []) (str% "reason")) (str% "annotation")
  have h14 := hcopy (.map []) (str% "reason")
  simp only [levels, levelsEntries] at h12 h14 ⊢
  omega

theorem depth_ofIndexed (E : Ext) (r : IndexedReport) : levels (ofIndexed E r) ≤ 3 := by
  have h0 : ∀ e, levels (ofElement e) ≤ 1 := by
    intro e
    unfold ofElement
    cases e.posting <;> simp [levels, levelsAll, ofNat]
  have h : ∀ l : List ElementIdx, levels (.vec (l.map ofElement)) ≤ 2 := fun l => depth_vec_le fun x hx => by
    obtain ⟨s, -, rfl⟩ := List.mem_map.1 hx
    exact h0 s
  simp only [ofIndexed, levels, depthEntries_append, levelsEntries]
  have h2 := depth_optEntry (n := 2) (str% "related") (x := r.related) (f := fun l => .vec (l.map ofElement)) h
  have h3 := depth_optEntry (n := 0) (str% "annotation") (x := r.annotation) (f := fun a => Data.str (E.rowsText a)) (by simp [levels])
  have h4 := h0 r.idx
  omega

theorem depth_reports {E : Ext} {txt : Data → Str} {xs : List Data} {n : Nat} (hx : ∀ x ∈ xs, levels x ≤ n) {es : List IndexedReport}
    {rs : List Data} (h : Json.all (fun r => resolveReportFromRaw txt r (.vec xs)) (es.map (ofIndexed E)) = some rs) :
    ∀ c ∈ rs, levels c ≤ n + 4 := by
  intro c hc
  obtain ⟨j, hj, hr⟩ := Wire.all_mem h c hc
  obtain ⟨e, -, rfl⟩ := List.mem_map.1 hj
  have h1 := depth_resolved (depth_vec_le hx) hr
  have h2 := depth_ofIndexed E e
  omega

end Clj
end Limabean
