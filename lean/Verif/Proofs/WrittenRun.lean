/-
Loading what a raw plugin made: synthetic spans, sending, and the run of the plugins.
-/
import Verif.Proofs.WrittenLemmas
import Verif.Proofs.ChainLemmas

namespace Limabean

open Spec Clj

variable {E : Ext} {L : BookLib}

namespace Clj

/-! ### Synthetic spans -/

theorem nodup_set {l : List (Str × Data)} (h : (l.map Prod.fst).Nodup) (k : Str) (v : Data) : ((AMap.set l k v).map Prod.fst).Nodup := by
  induction l with
  | nil => simp [AMap.set]
  | cons e l ih =>
    obtain ⟨k', v'⟩ := e
    simp only [List.map_cons, List.nodup_cons] at h
    unfold AMap.set
    split
    · rename_i hk
      have hk : k' = k := hk
      subst hk
      simpa using h
    · rename_i hk
      have hk : k' ≠ k := hk
      simp only [List.map_cons, List.nodup_cons]
      refine ⟨fun hc => ?_, ih h.2⟩
      obtain ⟨q, hq, e⟩ := List.mem_map.1 hc
      rcases AMap.mem_set hq with rfl | hq
      · exact hk e.symm
      · exact h.1 (e ▸ List.mem_map_of_mem hq)

theorem real_assoc {m v : Data} (hm : RealData m) (hv : RealData v) (k : Str) : RealData (m.assoc k v) := by
  cases m with
  | map l =>
    cases hm with
    | map h1 h2 =>
      refine .map (nodup_set h1 k v) fun q hq => ?_
      rcases AMap.mem_set hq with rfl | hq
      · exact hv
      · exact h2 q hq
  | nil => exact .map (by simp) (by simp only [List.mem_singleton]; rintro q rfl; exact hv)
  | _ => exact hm

theorem real_find {m : Data} (hm : RealData m) (k : Str) : RealData (m.get k) := by
  cases m with
  | map l =>
    show RealData ((AMap.get l k).getD .nil)
    cases hg : AMap.get l k with
    | none => exact .nil
    | some v => exact real_get hm hg
  | _ => exact .nil

theorem depth_elems {m x : Data} (h : x ∈ m.elems) : levels x ≤ levels m - 1 := by
  cases m with
  | vec l =>
    have := depthAll_le.1 (Nat.le_refl (levelsAll l)) x h
    simp only [levels]
    omega
  | set l =>
    have := depthAll_le.1 (Nat.le_refl (levelsAll l)) x h
    simp only [levels]
    omega
  | _ => cases h

theorem real_elems {m : Data} (hm : RealData m) : ∀ x ∈ m.elems, RealData x := by
  cases hm with
  | vec h => exact h
  | set h => exact h
  | _ => intro x hx; cases hx

theorem real_ofSpan (s : Span) : RealData (ofSpan s) := by
  refine .vec fun x hx => ?_
  simp [ofNat] at hx
  rcases hx with rfl | rfl | rfl <;> exact .num _

theorem postings_maps {y : Data} {d : Raw.Directive} (h : Writes y d) :
    y.get (str% "postings") = .nil ∨ ∃ l, y.get (str% "postings") = .vec l ∧ ∀ p ∈ l, Spec.IsMap p := by
  rcases h.onlyTxn with hk | hk
  · right
    have hv := h.content.variant
    cases hd : (withoutLostMeta d).variant with
    | transaction t =>
      rw [hd] at hv
      obtain ⟨-, -, -, -, l, h1, h2⟩ := hv
      refine ⟨l, h1, fun p hp => ?_⟩
      obtain ⟨q, -, hq⟩ := forall₂_right (List.Forall₂.flip h2) hp
      have := hq.acc
      cases p <;> trivial
    | _ =>
      rw [hd] at hv
      have := hk.symm.trans hv.1
      cases this
  · exact .inl hk

theorem zip_withSpan {l : List Data} (hl : ∀ p ∈ l, Spec.IsMap p) {spans : List Span} (hn : spans.length = l.length) :
    List.Forall₂ WithSpan l (List.zipWith (fun p s => p.assoc (str% "span-p") s) l (spans.map ofSpan)) := by
  induction l generalizing spans with
  | nil => exact .nil
  | cons p l ih =>
    cases spans with
    | nil => simp at hn
    | cons s spans =>
      have hp := hl p (by simp)
      refine .cons ⟨⟨s, ?_⟩, fun k hk => ?_⟩ (ih (fun q hq => hl q (by simp [hq])) (by simpa using hn))
      · rw [get_assoc hp, if_pos rfl]
      · rw [get_assoc hp, if_neg hk]

theorem mergeSpans_get {y : Data} {d : Raw.Directive} (h : Writes y d) (hp : (y.get (str% "provenance")).truthy = true) {spans : List Span}
    (hn : spans.length = nSpans y) :
    (∃ s, (mergeSpans y (spans.map ofSpan)).get (str% "span-p") = ofSpan s) ∧ PostingsAs y (mergeSpans y (spans.map ofSpan)) ∧
      (∀ k, k ≠ str% "span-p" → k ≠ str% "postings" → (mergeSpans y (spans.map ofSpan)).get k = y.get k) ∧
      List.Forall₂ WithSpan (y.get (str% "postings")).elems ((mergeSpans y (spans.map ofSpan)).get (str% "postings")).elems := by
  have hm := valid_isMap h.checked
  rw [nSpans, if_pos hp] at hn
  cases spans with
  | nil => simp at hn
  | cons s spans =>
    have hn : spans.length = (y.get (str% "postings")).elems.length := by simpa using hn
    unfold mergeSpans
    simp only [List.map_cons, List.head?_cons, Option.getD_some, List.tail_cons]
    cases spans with
    | nil =>
      have he : (y.get (str% "postings")).elems = [] := List.eq_nil_of_length_eq_zero hn.symm
      simp only [List.map_nil, List.isEmpty_nil, if_true, get_assoc hm]
      refine ⟨⟨s, rfl⟩, .inl ?_, fun k h1 _ => by rw [if_neg h1], ?_⟩
      · rw [get_assoc hm, if_neg (by decide)]
      · rw [if_neg (by decide), he]
        exact .nil
    | cons s' spans =>
      have hm' := isMap_assoc hm (str% "span-p") (ofSpan s)
      simp only [List.map_cons, List.isEmpty_cons, Bool.false_eq_true, if_false]
      rw [← List.map_cons]
      rcases postings_maps h with hq | ⟨l, hl, hlm⟩
      · rw [hq] at hn
        simp [Data.elems] at hn
      · rw [hl] at hn ⊢
        have hz := zip_withSpan hlm (spans := s' :: spans) hn
        refine ⟨⟨s, ?_⟩, .inr ⟨l, _, hl, ?_, hz⟩, fun k h1 h2 => ?_, ?_⟩
        · rw [get_assoc hm', if_neg (by decide), get_assoc hm, if_pos rfl]
        · rw [get_assoc hm', if_pos rfl]
          rfl
        · rw [get_assoc hm', if_neg h2, get_assoc hm, if_neg h1]
        · rw [get_assoc hm', if_pos rfl]
          exact hz

theorem mem_zipWith {α β γ : Type} {f : α → β → γ} {l : List α} {l' : List β} {x : γ} (h : x ∈ List.zipWith f l l') :
    ∃ a ∈ l, ∃ b ∈ l', x = f a b := by
  obtain ⟨i, hi, rfl⟩ := List.mem_iff_getElem.1 h
  rw [List.getElem_zipWith]
  exact ⟨_, List.getElem_mem _, _, List.getElem_mem _, rfl⟩

theorem mergeSpans_real {y : Data} (h : RealData y) (spans : List Span) : RealData (mergeSpans y (spans.map ofSpan)) := by
  have hs : ∀ s ∈ spans.map ofSpan, RealData s := by
    intro s hs
    obtain ⟨t, -, rfl⟩ := List.mem_map.1 hs
    exact real_ofSpan t
  have h1 : RealData (((spans.map ofSpan).head?).getD .nil) := by
    cases spans with
    | nil => exact .nil
    | cons s _ => exact real_ofSpan s
  unfold mergeSpans
  dsimp only
  split
  · exact real_assoc h h1 _
  · refine real_assoc (real_assoc h h1 _) (.vec fun x hx => ?_) _
    obtain ⟨p, hp, s, hs', rfl⟩ := mem_zipWith hx
    exact real_assoc (real_elems (real_find h _) p hp) (hs s (List.mem_of_mem_tail hs')) _

theorem mergeSpans_shallow {y : Data} (h : levels y < 126) (spans : List Span) : levels (mergeSpans y (spans.map ofSpan)) < 126 := by
  have hs : ∀ s ∈ spans.map ofSpan, levels s ≤ 1 := by
    intro s hs
    obtain ⟨t, -, rfl⟩ := List.mem_map.1 hs
    rw [depth_ofSpan]
  have h1 : levels (((spans.map ofSpan).head?).getD .nil) ≤ 1 := by
    cases spans with
    | nil => simp [levels]
    | cons s _ => simp [depth_ofSpan]
  have h2 := depth_assoc y (str% "span-p") (((spans.map ofSpan).head?).getD .nil)
  unfold mergeSpans
  dsimp only
  split
  · omega
  · refine Nat.lt_of_le_of_lt (depth_assoc _ _ _) ?_
    have h3 : levels (.vec (List.zipWith (fun p s => p.assoc (str% "span-p") s) (y.get (str% "postings")).elems (spans.map ofSpan).tail)) ≤ 123 + 1 := by
      refine depth_vec_le fun x hx => ?_
      obtain ⟨p, hp, s, hs', rfl⟩ := mem_zipWith hx
      have h4 := depth_assoc p (str% "span-p") s
      have h5 := hs s (List.mem_of_mem_tail hs')
      have h6 : levels p ≤ levels (y.get (str% "postings")) - 1 := depth_elems hp
      have h7 := depth_get y (str% "postings")
      omega
    omega

theorem mergeSpans_writes {y : Data} {d : Raw.Directive} (h : Writes y d) (hp : (y.get (str% "provenance")).truthy = true) {spans : List Span}
    (hn : spans.length = nSpans y) : Spanned y (mergeSpans y (spans.map ofSpan)) ∧ Writes (mergeSpans y (spans.map ofSpan)) d := by
  obtain ⟨h1, h2, h3, h4⟩ := mergeSpans_get h hp hn
  have hr : RestAs y (mergeSpans y (spans.map ofSpan)) := fun k g1 _ g3 => h3 k g1 g3
  refine ⟨?_, directiveIs_as hr h2 h.content, mergeSpans_real h.real spans, mergeSpans_valid _ h.checked, sendDirective_as hr h2 h.sendable,
    spansKept_as hr h2 h.spans, ?_, mergeSpans_shallow h.shallow spans, ?_⟩
  · unfold Spanned
    rw [if_pos hp]
    exact ⟨h1, h4, h3⟩
  · unfold isErr
    rw [h3 _ (by decide) (by decide)]
    exact h.noError
  · rw [h3 _ (by decide) (by decide)]
    refine h.onlyTxn.imp id fun hq => ?_
    rcases h2 with h2 | ⟨l, -, hl, -⟩
    · exact h2.trans hq
    · rw [hq] at hl
      cases hl

/-! ### Spans for all -/

theorem written_texts {y : Data} {d : Raw.Directive} (h : Writes y d) (hp : (y.get (str% "provenance")).truthy = true) (T : Texts) :
    (elementTexts T y).length = nSpans y := by
  unfold elementTexts nSpans
  rw [if_pos hp]
  split
  · simp
  · rename_i hk
    rcases h.onlyTxn with hq | hq
    · rw [hq] at hk
      exact absurd rfl hk
    · rw [hq]
      rfl

theorem requests_length (T : Texts) (txt : Data → Str) {ys : List Data} {ds : List Raw.Directive} (h : List.Forall₂ Writes ys ds) :
    (spanRequests T txt ys).length = (ys.map nSpans).sum := by
  unfold spanRequests
  induction h with
  | nil => rfl
  | @cons y d ys ds hy _ ih =>
    by_cases hp : (y.get (str% "provenance")).truthy = true
    · simp only [List.filter_cons, hp, if_true, List.flatMap_cons, List.length_append, List.length_map, ih, written_texts hy hp,
        List.map_cons, List.sum_cons]
    · have : nSpans y = 0 := by simp [nSpans, hp]
      simp only [List.filter_cons, hp, Bool.false_eq_true, if_false, ih, List.map_cons, List.sum_cons, this, Nat.zero_add]

theorem mapN_writes {ys : List Data} {ds : List Raw.Directive} (h : List.Forall₂ Writes ys ds) (spans : List Span)
    (hn : spans.length = (ys.map nSpans).sum) :
    List.Forall₂ Spanned ys (mapN ys (spans.map ofSpan)) ∧ List.Forall₂ Writes (mapN ys (spans.map ofSpan)) ds := by
  induction h generalizing spans with
  | nil => exact ⟨.nil, .nil⟩
  | @cons y d ys ds hy _ ih =>
    rw [List.map_cons, List.sum_cons] at hn
    unfold mapN
    by_cases hp : (y.get (str% "provenance")).truthy = true
    · rw [if_neg (by simp [nSpans, hp]), ← List.map_take, ← List.map_drop]
      obtain ⟨h1, h2⟩ := mergeSpans_writes hy hp (spans := spans.take (nSpans y)) (by simp; omega)
      obtain ⟨h3, h4⟩ := ih (spans.drop (nSpans y)) (by simp; omega)
      exact ⟨.cons h1 h3, .cons h2 h4⟩
    · have hz : nSpans y = 0 := by simp [nSpans, hp]
      rw [if_pos hz]
      obtain ⟨h3, h4⟩ := ih spans (by omega)
      exact ⟨.cons (by unfold Spanned; rw [if_neg hp]) h3, .cons hy h4⟩

theorem vetted_all {valid : Data → Bool} {l : List Data} (h : ∀ x ∈ l, valid x = true) : vetted valid l = some l := by
  unfold vetted
  rw [if_pos]
  rw [List.all_eq_true]
  intro x hx
  rw [h x hx, Bool.or_true]

/-- The front end has run the plugins; the server has made the spans. -/
theorem written_transformed (F : Front E L) (hinj : Function.Injective F.hash) (ho : IsMapOrder F.ordm) (hv : F.valid = validDct)
    (ps : List Plugin) {n : Nat} (hn : n < 2147483647) (src : E.Sources) (parsed : Except (List ParserError) Parsed) {xs : List Data}
    (hx : ∀ x ∈ xs, validDct true x = true) {ys : List Data} (ht : throughVetted (validDct true) none ps xs = some ys)
    {ds : List Raw.Directive} (hw : List.Forall₂ Writes ys ds) :
    ∃ n' src' zs, n' ≤ n + 1 ∧ transformed F true ps (ready n src parsed) xs = (ready n' src' parsed, some zs) ∧
      List.Forall₂ Spanned ys zs ∧ List.Forall₂ Writes zs ds := by
  have hrun := runPlugins_vetted (hash := F.hash) (valid := F.valid true) (phase := none) hinj ps (objects_tok xs) (objects_nodup xs)
  rw [objects_data, hv, vetted_all hx, Option.bind_some, ht] at hrun
  obtain ⟨out, h3, h4⟩ := Option.map_eq_some_iff.1 hrun
  rw [← hv] at h3
  unfold transformed
  simp only [if_true, h3, h4]
  unfold mergeWithPod mergeWithProvenance createWithProvenance
  have hc := requests_length F.texts F.txt hw
  by_cases hq : (spanRequests F.texts F.txt ys).isEmpty = true
  · refine ⟨n, src, ys, by omega, by simp only [hq, if_true, Option.map_some, List.isEmpty_nil], ?_, hw⟩
    rw [List.isEmpty_iff] at hq
    rw [hq] at hc
    have hz : ∀ y ∈ ys, nSpans y = 0 := by
      intro y hy
      exact List.sum_eq_zero_iff.1 hc.symm _ (List.mem_map_of_mem hy)
    refine List.forall₂_same.2 fun y hy => ?_
    have := hz y hy
    unfold Spanned
    rw [if_neg]
    intro hp
    simp [nSpans, hp] at this
  · unfold ready
    simp only [createSpans_ok F ho hn, hq, Bool.false_eq_true, if_false, Option.map_some]
    have hlen := createSpans_length src (spanRequests F.texts F.txt ys)
    have hne : ((Server.createSpans src (spanRequests F.texts F.txt ys)).2.map ofSpan).isEmpty = false := by
      rw [Bool.eq_false_iff]
      intro h
      apply hq
      rw [List.isEmpty_iff, List.map_eq_nil_iff] at h
      rw [h] at hlen
      rw [List.isEmpty_iff]
      exact List.eq_nil_of_length_eq_zero hlen.symm
    simp only [hne, Bool.false_eq_true, if_false]
    exact ⟨n + 1, _, _, by omega, rfl, mapN_writes hw _ (hlen.trans hc)⟩

/-- The server reads what the data stand for. -/
theorem written_sent {ordm : List (Str × Json) → List (Str × Json)} (ho : IsMapOrder ordm) {zs : List Data} {ds : List Raw.Directive}
    (h : List.Forall₂ Writes zs ds) :
    ∃ es, Json.all Wire.decDirective (zs.map (toJson ordm)) = some es ∧ List.Forall₂ (DirectiveLike .reread) ds es := by
  induction h with
  | nil => exact ⟨[], rfl, .nil⟩
  | @cons z d zs ds hz _ ih =>
    obtain ⟨es, h1, h2⟩ := ih
    obtain ⟨e, h3⟩ := (C68_accepted_partial ho hz.real hz.spans hz.checked).2 hz.sendable
    have h4 := C68_understood_partial ho hz.real hz.spans hz.checked h3
    exact ⟨e :: es, by simp only [List.map_cons, Json.all, h3, h1], .cons (like_reread (directiveIs_unique h4 hz.content)) h2⟩

end Clj
end Limabean
