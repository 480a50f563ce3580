/-
The text of a directive depends on what is printed of it, only.
-/
import Verif.Clj.Print
import Verif.Clj.Resolve
import Verif.Spec.Printed
import Verif.Props.C52

namespace Limabean
namespace Clj

open Spec

/-- The fields of a posting of which something is printed. -/
def postingKeys : List Str :=
  [str% "flag", str% "acc", str% "units", str% "cur", str% "cost", str% "cost-spec", str% "price", str% "price-spec", str% "tags", str% "links",
    str% "metadata"]

/-- The fields of a directive of which something is printed, except for the postings. -/
def directiveKeys : List Str :=
  [str% "date", str% "dct", str% "flag", str% "payee", str% "narration", str% "price", str% "acc", str% "cur", str% "units", str% "tolerance",
    str% "currencies", str% "booking", str% "source", str% "path", str% "comment", str% "type", str% "description", str% "name",
    str% "content", str% "values", str% "tags", str% "links", str% "metadata"]

theorem postingText_congr (txt : Data → Str) {x y : Data} (h : ∀ k ∈ postingKeys, x.get k = y.get k) : postingText txt x = postingText txt y := by
  simp only [postingKeys, List.forall_mem_cons] at h
  obtain ⟨h1, h2, h3, h4, h5, h6, h7, h8, h9, h10, h11, -⟩ := h
  unfold postingText
  rw [h1, h2, h3, h4, h5, h6, h7, h8, h9, h10, h11]

theorem directiveText_congr (txt : Data → Str) {x y : Data} (h : ∀ k ∈ directiveKeys, x.get k = y.get k)
    (hp : (x.get (str% "postings")).elems.flatMap (postingText txt) = (y.get (str% "postings")).elems.flatMap (postingText txt)) :
    directiveText txt x = directiveText txt y := by
  simp only [directiveKeys, List.forall_mem_cons] at h
  obtain ⟨h1, h2, h3, h4, h5, h6, h7, h8, h9, h10, h11, h12, h13, h14, h15, h16, h17, h18, h19, h20, h21, h22, h23, -⟩ := h
  have hk : kindFields txt x = kindFields txt y := by
    unfold kindFields txnFields
    rw [h2, h4, h5, h6, h7, h8, h9, h10, h11, h12, h13, h14, h15, h16, h17, h18, h19, h20]
  have hc : commonHeader txt x = commonHeader txt y := by
    unfold commonHeader dctType
    rw [h1, h2, h3]
  unfold directiveText
  rw [hk, hc, h2, h21, h22, h23, hp]

theorem copyField_other {raw m : Data} {k k' : Str} (h : k ≠ k') (hm : ∃ l, m = .map l) : (copyField raw m k).get k' = m.get k' := by
  obtain ⟨l, rfl⟩ := hm
  unfold copyField
  split
  · simp only [Data.assoc, Data.get]
    rw [AMap.get_set_ne _ h]
  · rfl

theorem copyField_map {raw m : Data} {k : Str} (hm : ∃ l, m = .map l) : ∃ l, copyField raw m k = .map l := by
  obtain ⟨l, rfl⟩ := hm
  unfold copyField
  split
  · exact ⟨_, rfl⟩
  · exact ⟨_, rfl⟩

theorem get_merge {raw m : Data} {k : Str} (h : k ≠ str% "span" ∧ k ≠ str% "span-p" ∧ k ≠ str% "provenance") (hm : ∃ l, m = .map l) :
    (mergeSpanAndProvenance m raw).get k = m.get k := by
  unfold mergeSpanAndProvenance
  rw [copyField_other h.2.2.symm (copyField_map (copyField_map hm)), copyField_other h.2.1.symm (copyField_map hm), copyField_other h.1.symm hm]

theorem merge_map {raw m : Data} (hm : ∃ l, m = .map l) : ∃ l, mergeSpanAndProvenance m raw = .map l :=
  copyField_map (copyField_map (copyField_map hm))

/-- Spans and provenance are not printed. -/
theorem resolved_text (txt : Data → Str) (raw : Data) (l : List (Str × Data))
    (hp : ∀ p ∈ ((Data.map l).get (str% "postings")).elems, ∃ m, p = .map m) :
    directiveText txt (resolveDirective raw (.map l)) = directiveText txt (.map l) := by
  have keys : ∀ k ∈ directiveKeys, k ≠ str% "span" ∧ k ≠ str% "span-p" ∧ k ≠ str% "provenance" ∧ k ≠ str% "postings" := by decide
  have pkeys : ∀ k ∈ postingKeys, k ≠ str% "span" ∧ k ≠ str% "span-p" ∧ k ≠ str% "provenance" := by decide
  have hg : ∀ r k, k ≠ str% "span" ∧ k ≠ str% "span-p" ∧ k ≠ str% "provenance" →
      (mergeSpanAndProvenance (.map l) r).get k = (Data.map l).get k := fun r k hk => get_merge hk ⟨l, rfl⟩
  unfold resolveDirective
  dsimp only
  split
  · obtain ⟨l', e⟩ := merge_map (raw := raw.nth ((Data.map l).get (str% "idx"))) (m := .map l) ⟨l, rfl⟩
    have hs : ∀ k v, k ≠ str% "postings" → ((Data.map l').assoc (str% "postings") v).get k = (Data.map l').get k := by
      intro k v hk
      simp only [Data.assoc, Data.get]
      rw [AMap.get_set_ne _ hk.symm]
    refine directiveText_congr txt (fun k hk => ?_) ?_
    · obtain ⟨k1, k2, k3, k4⟩ := keys k hk
      rw [e, hs _ _ k4, ← e, hg _ _ ⟨k1, k2, k3⟩]
    · rw [hg _ _ (by decide), e]
      simp only [Data.assoc, Data.get, AMap.get_set_self, Option.getD_some, Data.elems]
      rw [List.flatMap_map, List.flatMap_def, List.flatMap_def]
      exact congrArg List.flatten (List.map_congr_left fun p hm =>
        postingText_congr txt fun k hk => get_merge (pkeys k hk) (hp p hm))
  · refine directiveText_congr txt (fun k hk => ?_) ?_
    · obtain ⟨k1, k2, k3, k4⟩ := keys k hk
      exact hg _ _ ⟨k1, k2, k3⟩
    · rw [hg _ _ (by decide)]

theorem cost_text (txt : Data → Str) (c : Booked.Cost) : costText txt (ofCost c) = costText txt (ofCostSpec (costWritten c)) := by
  obtain ⟨date, per, total, cur, label, merge⟩ := c
  unfold costText
  refine congrArg (fun s => ['{'] ++ dropLead s ++ ['}']) ?_
  simp only [ofCost, ofCostSpec, costWritten, Data.get, get_append, get_optEntry, AMap.get]
  cases label <;> cases merge <;> simp [whenLet, Data.truthy, doubleQuote, javaStr, printed]

theorem price_text (txt : Data → Str) (p : Booked.Price) : priceText txt (ofBookedPrice p) = priceText txt (ofPriceSpec (priceWritten p)) := by
  obtain ⟨per, total, cur⟩ := p
  unfold priceText
  simp only [ofBookedPrice, ofPriceSpec, priceWritten, Data.get, get_append, get_optEntry, AMap.get]
  cases total <;> simp [whenLet, Data.truthy, javaStr, printed]

theorem posting_text (txt : Data → Str) (ord : List Data → List Data) (p : Booked.Posting) :
    postingText txt (ofBookedPosting ord p) = postingText txt (ofPosting ord (postingWritten p)) := by
  have g : ∀ k, k ∈ postingKeys → k ∉ [str% "cost", str% "cost-spec", str% "price", str% "price-spec"] →
      (ofBookedPosting ord p).get k = (ofPosting ord (postingWritten p)).get k := by
    intro k h1 h2
    simp only [List.mem_cons, List.not_mem_nil, or_false, not_or] at h2
    simp only [postingKeys, List.mem_cons, List.not_mem_nil, or_false] at h1
    rcases h1 with rfl | rfl | rfl | rfl | rfl | rfl | rfl | rfl | rfl | rfl | rfl <;>
      simp [ofBookedPosting, ofPosting, postingWritten, Data.get, get_append, get_optEntry, AMap.get] at h2 ⊢
  have c1 : (ofBookedPosting ord p).get (str% "cost") = (p.cost.map ofCost).getD .nil := by
    simp [ofBookedPosting, Data.get, get_append, get_optEntry, AMap.get]
  have c2 : (ofBookedPosting ord p).get (str% "cost-spec") = .nil := by simp [ofBookedPosting, Data.get, get_append, get_optEntry, AMap.get]
  have c3 : (ofBookedPosting ord p).get (str% "price") = (p.price.map ofBookedPrice).getD .nil := by
    simp [ofBookedPosting, Data.get, get_append, get_optEntry, AMap.get]
  have c4 : (ofBookedPosting ord p).get (str% "price-spec") = .nil := by simp [ofBookedPosting, Data.get, get_append, get_optEntry, AMap.get]
  have d1 : (ofPosting ord (postingWritten p)).get (str% "cost") = .nil := by
    simp [ofPosting, Data.get, get_append, get_optEntry, AMap.get]
  have d2 : (ofPosting ord (postingWritten p)).get (str% "cost-spec") = ((p.cost.map costWritten).map ofCostSpec).getD .nil := by
    simp [ofPosting, postingWritten, Data.get, get_append, get_optEntry, AMap.get]
  have d3 : (ofPosting ord (postingWritten p)).get (str% "price") = .nil := by
    simp [ofPosting, Data.get, get_append, get_optEntry, AMap.get]
  have d4 : (ofPosting ord (postingWritten p)).get (str% "price-spec") = ((p.price.map priceWritten).map ofPriceSpec).getD .nil := by
    simp [ofPosting, postingWritten, Data.get, get_append, get_optEntry, AMap.get]
  have w1 : whenLet (((p.cost.map ofCost).getD .nil).or .nil) (fun x => ' ' :: costText txt x) =
      whenLet (Data.or .nil (((p.cost.map costWritten).map ofCostSpec).getD .nil)) (fun x => ' ' :: costText txt x) := by
    cases p.cost with
    | none => rfl
    | some c => exact congrArg (' ' :: ·) (cost_text txt c)
  have w2 : whenLet (((p.price.map ofBookedPrice).getD .nil).or .nil) (fun x => ' ' :: priceText txt x) =
      whenLet (Data.or .nil (((p.price.map priceWritten).map ofPriceSpec).getD .nil)) (fun x => ' ' :: priceText txt x) := by
    cases p.price with
    | none => rfl
    | some c => exact congrArg (' ' :: ·) (price_text txt c)
  unfold postingText
  rw [c1, c2, c3, c4, d1, d2, d3, d4, w1, w2, g (str% "flag") (by decide) (by decide), g (str% "acc") (by decide) (by decide),
    g (str% "units") (by decide) (by decide), g (str% "cur") (by decide) (by decide), g (str% "tags") (by decide) (by decide),
    g (str% "links") (by decide) (by decide), g (str% "metadata") (by decide) (by decide)]

/-- What was booked is printed as one would write it. -/
theorem booked_text (txt : Data → Str) (ord : List Data → List Data) (d : Booked.Directive) :
    directiveText txt (ofBooked ord d) = directiveText txt (ofDirective ord (asWritten d)) := by
  obtain ⟨idx, date, tags, links, metadata, v⟩ := d
  have keys : ∀ k ∈ directiveKeys, k ≠ str% "idx" ∧ k ≠ str% "span" ∧ k ≠ str% "postings" := by decide
  have hv : ∀ k ∈ directiveKeys, AMap.get (ofBookedVariant ord v) k = AMap.get (ofVariant ord (variantWritten v)) k := by
    intro k hk
    have := (keys k hk).2.2
    cases v <;> try rfl
    simp [ofBookedVariant, ofVariant, variantWritten, get_append, AMap.get, this.symm]
  refine directiveText_congr txt (fun k hk => ?_) ?_
  · obtain ⟨k1, k2, -⟩ := keys k hk
    simp only [ofBooked, ofDirective, asWritten, Data.get, get_append, get_optEntry, hv k hk, AMap.get]
    simp [k1.symm]
  · cases v <;> simp [ofBooked, ofDirective, asWritten, variantWritten, ofBookedVariant, ofVariant, Data.get, get_append, get_optEntry, AMap.get]
    rename_i t
    simp only [Data.elems, List.flatMap_map, posting_text, Function.comp_def]

end Clj
end Limabean
