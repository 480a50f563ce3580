/-
The data of a directive as it was read stand for the directive; what marking and setting an entry do to that.
-/
import Verif.Proofs.WrittenRun

namespace Limabean

open Spec Clj

variable {E : Ext} {L : BookLib}

namespace Clj

variable {ord : List Data → List Data} {ordm : List (Str × Json) → List (Str × Json)}

/-! ### The order of sets and maps does not matter -/

theorem maybe_sameSet {α : Type} {P : Data → List α → Prop} (h : ∀ x a b, P x a → a.Perm b → P x b) {x : Data} {a b : Option (List α)}
    (ha : Maybe P x a) (hab : SameSet a b) : Maybe P x b := by
  cases a <;> cases b
  · exact ha
  · exact hab.elim
  · exact hab.elim
  · exact h _ _ _ ha hab

theorem setIs_perm (x : Data) (a b : List Str) (h : SetIs x a) (hab : a.Perm b) : SetIs x b := by
  obtain ⟨l, h1, h2, h3⟩ := h
  exact ⟨l, h1, hab.nodup_iff.1 h2, fun t => hab.mem_iff.symm.trans (h3 t)⟩

theorem metadataIs_perm (x : Data) (a b : List (Str × MetaValue)) (h : MetadataIs x a) (hab : a.Perm b) : MetadataIs x b := by
  obtain ⟨l, h1, h2, h3, h4⟩ := h
  exact ⟨l, h1, (hab.map Prod.fst).nodup_iff.1 h2, fun t => (hab.map Prod.fst).mem_iff.symm.trans (h3 t),
    fun k v m hv hm => h4 k v m hv (hab.mem_iff.2 hm)⟩

theorem postingIs_reordered {x : Data} {p q : Raw.PostingSpec} (h : PostingIs x p) (hpq : ReorderedPosting p q) : PostingIs x q := by
  have hr := hpq.rest
  obtain ⟨h1, h2, h3, h4, h5, h6, h7, h8⟩ := h
  obtain ⟨g1, g2, g3, -⟩ := hpq
  cases p
  cases q
  simp only [Raw.PostingSpec.mk.injEq] at hr
  obtain ⟨rfl, rfl, rfl, rfl, rfl, rfl, rfl, -⟩ := hr
  exact ⟨h1, h2, h3, h4, h5, h6, h7, maybe_sameSet setIs_perm h8.tags g1, maybe_sameSet setIs_perm h8.links g2,
    maybe_sameSet metadataIs_perm h8.metadata g3⟩

theorem postings_reordered {l : List Data} {ps qs : List Raw.PostingSpec} (h : List.Forall₂ PostingIs l ps)
    (hq : List.Forall₂ ReorderedPosting ps qs) : List.Forall₂ PostingIs l qs := by
  induction h generalizing qs with
  | nil => cases hq; exact .nil
  | cons k _ ih =>
    cases hq with
    | cons k' ks => exact .cons (postingIs_reordered k k') (ih ks)

theorem directiveIs_reordered {x : Data} {d e : Raw.Directive} (h : DirectiveIs x d) (hde : ReorderedDirective d e) : DirectiveIs x e := by
  refine ⟨hde.span ▸ h.span, hde.date ▸ h.date, ⟨maybe_sameSet setIs_perm h.attached.tags hde.tags,
    maybe_sameSet setIs_perm h.attached.links hde.links, maybe_sameSet metadataIs_perm h.attached.metadata hde.metadata⟩, ?_⟩
  have hv := h.variant
  have hr := hde.variant
  cases hd : d.variant with
  | transaction t =>
    rw [hd] at hv hr
    cases he : e.variant with
    | transaction u =>
      rw [he] at hr
      obtain ⟨hr1, hr2⟩ := hr
      obtain ⟨g1, g2, g3, g4, l, g5, g6⟩ := hv
      cases t
      cases u
      simp only [Raw.Transaction.mk.injEq] at hr2
      obtain ⟨rfl, rfl, rfl, -⟩ := hr2
      exact ⟨g1, g2, g3, g4, l, g5, postings_reordered g6 hr1⟩
    | _ => rw [he] at hr; exact absurd hr (by simp [ReorderedVariant])
  | opn o =>
    rw [hd] at hv hr
    cases he : e.variant with
    | opn u =>
      rw [he] at hr
      obtain ⟨hr1, hr2⟩ := hr
      obtain ⟨g1, g2, g3, g4⟩ := hv
      cases o
      cases u
      simp only [Raw.Open.mk.injEq] at hr2
      obtain ⟨rfl, -, rfl⟩ := hr2
      exact ⟨g1, g2, maybe_sameSet setIs_perm g3 hr1, g4⟩
    | _ => rw [he] at hr; exact absurd hr (by simp [ReorderedVariant])
  | _ =>
    rw [hd] at hv hr
    have hr : _ = e.variant := hr
    rw [← hr]
    exact hv

/-! ### Directives as they were read -/

theorem real_opt {α : Type} {k : Str} {x : Option α} {f : α → Data} (h : ∀ a ∈ x, RealData (f a)) : ∀ q ∈ optEntry k x f, RealData q.2 := by
  intro q hq
  cases x with
  | none => cases hq
  | some a =>
    simp only [optEntry, List.mem_singleton] at hq
    subst hq
    exact h a rfl

theorem real_append {l l' : List (Str × Data)} (h : ∀ q ∈ l, RealData q.2) (h' : ∀ q ∈ l', RealData q.2) : ∀ q ∈ l ++ l', RealData q.2 := by
  intro q hq
  rcases List.mem_append.1 hq with hq | hq
  · exact h q hq
  · exact h' q hq

theorem real_one {k : Str} {x : Data} (h : RealData x) : ∀ q ∈ [(k, x)], RealData q.2 := by
  intro q hq
  rw [List.mem_singleton] at hq
  subst hq
  exact h

theorem real_cons {k : Str} {x : Data} {l : List (Str × Data)} (h : RealData x) (h' : ∀ q ∈ l, RealData q.2) : ∀ q ∈ (k, x) :: l, RealData q.2 := by
  intro q hq
  rcases List.mem_cons.1 hq with rfl | hq
  · exact h
  · exact h' q hq

theorem real_ofMeta {m : MetaValue} (h : MetaOk m) : RealData (ofMeta m) := by
  cases m with
  | null => exact .nil
  | amount u c => exact .map (by simp) (real_cons (.num _) (real_one (.str _)))
  | date d => exact .map (by simp) (real_one (.date h))
  | bool b => exact .map (by simp) (real_one (.bool _))
  | number b => exact .map (by simp) (real_one (.num _))
  | _ => exact .map (by simp) (real_one (.str _))

theorem real_ofSet (hs : IsOrder ord) (l : List Str) : RealData (ofSet ord l) := by
  refine .set fun x hx => ?_
  obtain ⟨t, -, rfl⟩ := List.mem_map.1 ((hs _).mem_iff.1 hx)
  exact .str t

theorem real_ofMetadata {l : List (Str × MetaValue)} (h : EntriesOk l) : RealData (ofMetadata l) := by
  refine .map (by rw [List.map_map]; exact h.1) fun q hq => ?_
  obtain ⟨p, hp, rfl⟩ := List.mem_map.1 hq
  exact real_ofMeta (h.2 p hp).2

theorem real_ofCostSpec {c : Raw.CostSpec} (h : ∀ x ∈ c.date, CalendarDate x) : RealData (ofCostSpec c) := by
  have hk : (str% "per-unit" :: str% "total" :: str% "cur" :: str% "date" :: str% "label" :: str% "merge" :: ([] : List Str)).Nodup := by
    decide
  refine .map (hk.sublist (by
    simp only [List.map_append]
    exact (((((keys_opt _ _ _).append (keys_opt _ _ _)).append (keys_opt _ _ _)).append (keys_opt _ _ _)).append (keys_opt _ _ _)).append
      (keys_opt _ _ _))) ?_
  exact real_append (real_append (real_append (real_append (real_append (real_opt fun _ _ => .num _) (real_opt fun _ _ => .num _))
    (real_opt fun _ _ => .str _)) (real_opt fun x hx => .date (h x hx))) (real_opt fun _ _ => .str _)) (real_opt fun _ _ => .bool _)

theorem real_ofPriceSpec (c : Raw.PriceSpec) : RealData (ofPriceSpec c) := by
  have hk : (str% "per-unit" :: str% "total" :: str% "cur" :: ([] : List Str)).Nodup := by decide
  refine .map (hk.sublist (by
    simp only [List.map_append]
    exact ((keys_opt _ _ _).append (keys_opt _ _ _)).append (keys_opt _ _ _))) ?_
  exact real_append (real_append (real_opt fun _ _ => .num _) (real_opt fun _ _ => .num _)) (real_opt fun _ _ => .str _)

theorem real_ofPrice (c : Raw.Price) : RealData (ofPrice c) := by
  have hk : (str% "per-unit" :: str% "total" :: str% "cur" :: ([] : List Str)).Nodup := by decide
  refine .map (hk.sublist (by
    simp only [List.map_append, List.map_cons, List.map_nil]
    exact ((List.Sublist.refl [_]).append (keys_opt _ _ _)).append (List.Sublist.refl [_]))) ?_
  exact real_append (real_append (real_one (.num _)) (real_opt fun _ _ => .num _)) (real_one (.str _))

theorem real_ofPosting (hs : IsOrder ord) {p : Raw.PostingSpec} (h : PostingOk p) : RealData (ofPosting ord p) := by
  have hk : (str% "span" :: str% "flag" :: str% "acc" :: str% "units" :: str% "cur" :: str% "cost-spec" :: str% "price-spec" ::
      str% "tags" :: str% "links" :: str% "metadata" :: ([] : List Str)).Nodup := by decide
  refine .map (hk.sublist (by
    simp only [List.map_append, List.map_cons, List.map_nil]
    exact (((((((((keys_opt _ _ _).append (keys_opt _ _ _)).append (List.Sublist.refl [_])).append (keys_opt _ _ _)).append
      (keys_opt _ _ _)).append (keys_opt _ _ _)).append (keys_opt _ _ _)).append (keys_opt _ _ _)).append (keys_opt _ _ _)).append
      (keys_opt _ _ _))) ?_
  exact real_append (real_append (real_append (real_append (real_append (real_append (real_append (real_append (real_append
    (real_opt fun _ _ => real_ofSpan _) (real_opt fun _ _ => .str _)) (real_one (.str _))) (real_opt fun _ _ => .num _)) (real_opt fun _ _ => .str _))
    (real_opt fun c hc => real_ofCostSpec (h.cost c hc).2)) (real_opt fun _ _ => real_ofPriceSpec _)) (real_opt fun _ _ => real_ofSet hs _))
    (real_opt fun _ _ => real_ofSet hs _)) (real_opt fun l hl => real_ofMetadata (h.attached.metadata l hl))

theorem real_ofVariant (hs : IsOrder ord) {v : Raw.Variant} (h : Spec.VariantOk v) : ∀ q ∈ ofVariant ord v, RealData q.2 := by
  cases v with
  | transaction t =>
    refine real_append (real_append (real_append (real_cons (.kw _) (real_one (.str _))) (real_opt fun _ _ => .str _)) (real_opt fun _ _ => .str _))
      (real_one (.vec fun x hx => ?_))
    obtain ⟨p, hp, rfl⟩ := List.mem_map.1 hx
    exact real_ofPosting hs (h p hp)
  | price p => exact real_cons (.kw _) (real_cons (.str _) (real_one (real_ofPrice _)))
  | balance p => exact real_append (real_cons (.kw _) (real_cons (.str _) (real_cons (.num _) (real_one (.str _))))) (real_opt fun _ _ => .num _)
  | opn p => exact real_append (real_append (real_cons (.kw _) (real_one (.str _))) (real_opt fun _ _ => real_ofSet hs _)) (real_opt fun _ _ => .kw _)
  | close p => exact real_cons (.kw _) (real_one (.str _))
  | commodity p => exact real_cons (.kw _) (real_one (.str _))
  | custom c =>
    refine real_cons (.kw _) (real_cons (.str _) (real_one (.vec fun x hx => ?_)))
    obtain ⟨m, hm, rfl⟩ := List.mem_map.1 hx
    exact real_ofMeta (h m hm)
  | _ => exact real_cons (.kw _) (real_cons (.str _) (real_one (.str _)))

theorem real_ofDirective (hs : IsOrder ord) {d : Raw.Directive} (h : DirectiveOk d) : RealData (ofDirective ord d) := by
  obtain ⟨k1, k2⟩ := variant_keys ord d.variant
  have hk : [str% "span", str% "date", str% "tags", str% "links", str% "metadata"].Nodup := by decide
  unfold ofDirective
  refine .map ?_ ?_
  · rw [List.map_append]
    have hsub : ((optEntry (str% "span") d.span ofSpan ++ [(str% "date", Data.date d.date)] ++ optEntry (str% "tags") d.tags (ofSet ord) ++
        optEntry (str% "links") d.links (ofSet ord) ++ optEntry (str% "metadata") d.metadata ofMetadata).map Prod.fst).Sublist
        [str% "span", str% "date", str% "tags", str% "links", str% "metadata"] := by
      simp only [List.map_append, List.map_cons, List.map_nil]
      exact ((((keys_opt _ _ _).append (List.Sublist.refl [_])).append (keys_opt _ _ _)).append (keys_opt _ _ _)).append (keys_opt _ _ _)
    refine List.nodup_append.2 ⟨hk.sublist hsub, k1, ?_⟩
    rintro a ha b hb rfl
    exact k2 a hb (hsub.subset ha)
  · exact real_append (real_append (real_append (real_append (real_append (real_opt fun _ _ => real_ofSpan _) (real_one (.date h.date)))
      (real_opt fun _ _ => real_ofSet hs _)) (real_opt fun _ _ => real_ofSet hs _)) (real_opt fun l hl => real_ofMetadata (h.attached.metadata l hl)))
      (real_ofVariant hs h.variant)

theorem span_ofPosting (p : Raw.PostingSpec) : (ofPosting ord p).get (str% "span") = (p.span.map ofSpan).getD .nil := by
  unfold ofPosting
  simp [Data.get, get_append, get_optEntry, AMap.get]

theorem span_ofDirective (d : Raw.Directive) : (ofDirective ord d).get (str% "span") = (d.span.map ofSpan).getD .nil := by
  unfold ofDirective
  cases d.variant <;> simp [Data.get, ofVariant, get_append, get_optEntry, AMap.get]

theorem spanKept_opt {x : Data} {s : Option Span} (h : x.get (str% "span") = (s.map ofSpan).getD .nil) : SpanKept x := by
  cases s with
  | none => exact .inl h
  | some s => exact .inr ⟨s, h⟩

theorem postings_ofDirective (d : Raw.Directive) : (ofDirective ord d).get (str% "postings") = match d.variant with
    | .transaction t => .vec (t.postings.map (ofPosting ord))
    | _ => .nil := by
  unfold ofDirective
  cases d.variant <;> simp [Data.get, ofVariant, get_append, get_optEntry, AMap.get]

theorem spansKept_ofDirective (d : Raw.Directive) : SpansKept (ofDirective ord d) := by
  refine ⟨spanKept_opt (span_ofDirective d), fun p hp => ?_⟩
  rw [postings_ofDirective] at hp
  split at hp
  · obtain ⟨q, -, rfl⟩ := List.mem_map.1 hp
    exact spanKept_opt (span_ofPosting q)
  · cases hp

/-- The data of a directive as it was read stand for the directive. -/
theorem writes_read (hs : IsOrder ord) {d : Raw.Directive} (hd : DirectiveOk d) (hn : NumbersFit (withoutLostMeta d)) :
    Writes (ofDirective ord (withoutLostMeta d)) d := by
  have hk := directiveOk_withoutLost hd
  have hv := (valid_raw hs _).2 hn
  have hr := real_ofDirective hs hk
  have hsp := spansKept_ofDirective (ord := ord) (withoutLostMeta d)
  have ho : IsMapOrder (id : List (Str × Json) → List (Str × Json)) := fun l => .refl l
  have hdec := decDirective_sent hs ho hk
  refine ⟨directiveIs_reordered (C68_understood_partial ho hr hsp hv hdec) (directiveBack_same hs ho hk), hr, hv,
    (C68_accepted_partial ho hr hsp hv).1 ⟨_, hdec⟩, hsp, isErr_ofDirective ord _, ?_, ?_⟩
  · have := depth_ofDirective hs (withoutLostMeta d)
    omega
  · rw [dct_ofDirective, postings_ofDirective]
    cases (withoutLostMeta d).variant with
    | transaction t => exact .inl rfl
    | _ => exact .inr rfl

/-! ### Setting entries -/

/-- The specification looks at these entries of a directive, at `:narration` only in transactions. -/
theorem validDct_entries {raw : Bool} {d r : Data} (hf : ∀ k, k ≠ str% "provenance" → k ≠ str% "narration" → r.find k = d.find k)
    (hp : optUn d (str% "narration") isStr = true → optUn r (str% "narration") isStr = true)
    (h : validDct raw d = true) : validDct raw r = true := by
  have hr : ∀ k q, k ≠ str% "provenance" → k ≠ str% "narration" → reqUn r k q = reqUn d k q := by
    intro k q h1 h2
    simp only [reqUn, hf k h1 h2]
  have ho : ∀ k q, k ≠ str% "provenance" → k ≠ str% "narration" → optUn r k q = optUn d k q := by
    intro k q h1 h2
    simp only [optUn, hf k h1 h2]
  have hg : ∀ k, k ≠ str% "provenance" → k ≠ str% "narration" → r.get k = d.get k := by
    intro k h1 h2
    rw [get_find, get_find, hf k h1 h2]
  simp only [validDct, Bool.and_eq_true] at h ⊢
  obtain ⟨⟨h1, h2⟩, h3⟩ := h
  refine ⟨⟨?_, ?_⟩, ?_⟩
  · rw [hr _ _ (by decide) (by decide)]
    exact h1
  · simp only [attachedOk] at h2 ⊢
    rw [ho _ _ (by decide) (by decide), ho _ _ (by decide) (by decide), ho _ _ (by decide) (by decide)]
    exact h2
  · unfold kindOk at h3 ⊢
    rw [hg _ (by decide) (by decide)]
    split at h3
    · rename_i kind _
      by_cases c : kind = str% "txn"
      · rw [if_pos c] at h3 ⊢
        simp only [isTxn, Bool.and_eq_true] at h3 ⊢
        rw [hr _ _ (by decide) (by decide), ho (str% "payee") _ (by decide) (by decide), ho (str% "postings") _ (by decide) (by decide)]
        exact ⟨⟨h3.1.1, hp h3.1.2⟩, h3.2⟩
      · rw [if_neg c] at h3 ⊢
        have hany : ([str% "cur", str% "curs", str% "currency"].any fun k => (r.get k).truthy) =
            ([str% "cur", str% "curs", str% "currency"].any fun k => (d.get k).truthy) := by
          simp only [List.any_cons, List.any_nil]
          rw [hg _ (by decide) (by decide), hg _ (by decide) (by decide), hg _ (by decide) (by decide)]
        have e : ∀ k q, k ∈ [str% "cur", str% "price", str% "acc", str% "units", str% "tolerance", str% "currencies", str% "booking",
            str% "source", str% "path", str% "comment", str% "type", str% "description", str% "name", str% "content", str% "values"] →
            reqUn r k q = reqUn d k q ∧ optUn r k q = optUn d k q := by
          intro k q hk
          have h1 : k ≠ str% "provenance" := by rintro rfl; revert hk; decide
          have h2 : k ≠ str% "narration" := by rintro rfl; revert hk; decide
          exact ⟨hr k q h1 h2, ho k q h1 h2⟩
        simp only [isBalance, isOpen, hany] at h3 ⊢
        rw [(e (str% "cur") _ (by decide)).1, (e (str% "price") _ (by decide)).1, (e (str% "acc") _ (by decide)).1,
          (e (str% "units") _ (by decide)).1, (e (str% "tolerance") _ (by decide)).2, (e (str% "currencies") _ (by decide)).2,
          (e (str% "booking") _ (by decide)).2, (e (str% "source") _ (by decide)).1, (e (str% "path") _ (by decide)).1,
          (e (str% "comment") _ (by decide)).1, (e (str% "type") _ (by decide)).1, (e (str% "description") _ (by decide)).1,
          (e (str% "name") _ (by decide)).1, (e (str% "content") _ (by decide)).1, (e (str% "values") _ (by decide)).1]
        exact h3
    · rw [has_find, hf _ (by decide) (by decide), ← has_find]
      exact h3
    · cases h3

theorem shallow_assoc {y v : Data} (k : Str) (h : levels y < 126) (hv : levels v < 125) : levels (y.assoc k v) < 126 := by
  have := depth_assoc y k v
  omega

/-- Marking keeps what data stand for. -/
theorem writes_tagged {y : Data} {d : Raw.Directive} (h : Writes y d) (hp : y.get (str% "provenance") = .nil) (name : Str) :
    ∃ y', provenanceTag name none y = some y' ∧ Writes y' d ∧ y'.get (str% "provenance") = .vec [.str name] ∧
      ∀ k, k ≠ str% "provenance" → y'.get k = y.get k := by
  have hm := valid_isMap h.checked
  refine ⟨y.assoc (str% "provenance") (.vec [.str name]), ?_, ?_, ?_, ?_⟩
  · simp only [provenanceTag, hp]
    rfl
  · have hg : ∀ k, k ≠ str% "provenance" → (y.assoc (str% "provenance") (.vec [.str name])).get k = y.get k := by
      intro k hk
      rw [get_assoc hm, if_neg hk]
    have hr : RestAs y (y.assoc (str% "provenance") (.vec [.str name])) := fun k _ h2 _ => hg k h2
    have hq : PostingsAs y (y.assoc (str% "provenance") (.vec [.str name])) := .inl (hg _ (by decide))
    refine ⟨directiveIs_as hr hq h.content, real_assoc h.real (.vec (by simp only [List.mem_singleton]; rintro x rfl; exact .str _)) _, ?_,
      sendDirective_as hr hq h.sendable, spansKept_as hr hq h.spans, ?_, shallow_assoc _ h.shallow (by simp [levels, levelsAll]), ?_⟩
    · refine validDct_entries (fun k h1 _ => by rw [find_assoc hm, if_neg (Ne.symm h1)]) (fun hq => ?_) h.checked
      simpa only [optUn, find_assoc hm, if_neg (show ¬ (str% "provenance" : Str) = str% "narration" by decide)] using hq
    · unfold isErr
      rw [hg _ (by decide)]
      exact h.noError
    · rw [hg _ (by decide), hg _ (by decide)]
      exact h.onlyTxn
  · rw [get_assoc hm, if_pos rfl]
  · intro k hk
    rw [get_assoc hm, if_neg hk]

/-- Setting the narration of what stands for a transaction. -/
theorem writes_narration {y : Data} {d : Raw.Directive} (h : Writes y d) (hk : y.get (str% "dct") = .kw (str% "txn")) (s : Str) :
    Writes (y.assoc (str% "narration") (.str s)) (withNarration s d) := by
  have hm := valid_isMap h.checked
  have hg : ∀ k, k ≠ str% "narration" → (y.assoc (str% "narration") (.str s)).get k = y.get k := by
    intro k hk
    rw [get_assoc hm, if_neg hk]
  have hn : (y.assoc (str% "narration") (.str s)).get (str% "narration") = .str s := by rw [get_assoc hm, if_pos rfl]
  have hv := h.content.variant
  have hd : ∃ t, d.variant = .transaction t := by
    cases hd : d.variant with
    | transaction t => exact ⟨t, rfl⟩
    | _ =>
      simp only [withoutLostMeta, hd] at hv
      have := hk.symm.trans hv.1
      cases this
  obtain ⟨t, hd⟩ := hd
  have hc := h.content
  constructor
  · constructor
    · rw [hg _ (by decide)]
      simpa [withNarration, hd, withoutLostMeta] using hc.span
    · rw [hg _ (by decide)]
      simpa [withNarration, hd, withoutLostMeta] using hc.date
    · refine attachedIs_get (hg _ (by decide)) (hg _ (by decide)) (hg _ (by decide)) ?_
      simpa [withNarration, hd, withoutLostMeta] using hc.attached
    · simp only [withoutLostMeta, hd, withNarration] at hv ⊢
      obtain ⟨h1, h2, h3, -, h5⟩ := hv
      refine ⟨by rw [hg _ (by decide)]; exact h1, by rw [hg _ (by decide)]; exact h2, by rw [hg _ (by decide)]; exact h3, hn, ?_⟩
      rw [hg _ (by decide)]
      exact h5
  · exact real_assoc h.real (.str _) _
  · refine validDct_entries (fun k _ h2 => by rw [find_assoc hm, if_neg (Ne.symm h2)]) (fun hq => ?_) h.checked
    simp only [optUn, find_assoc hm, if_true, isStr]
  · obtain ⟨h1, kind, h2, h3⟩ := h.sendable
    rw [hk] at h2
    cases h2
    refine ⟨sendAttached_get (hg _ (by decide)) (hg _ (by decide)) (hg _ (by decide)) h1, _, by rw [hg _ (by decide)]; exact hk, ?_, ?_, ?_, ?_, ?_⟩
    · intro k hk
      exact absurd hk (by simp [namesOfKind])
    · intro _
      rw [hg _ (by decide)]
      exact h3.txn rfl
    · intro hk; exact absurd hk (by decide)
    · intro hk; exact absurd hk (by decide)
    · intro hk; exact absurd hk (by decide)
  · obtain ⟨h1, h2⟩ := h.spans
    unfold SpansKept SpanKept
    rw [hg _ (by decide), hg _ (by decide)]
    exact ⟨h1, h2⟩
  · unfold isErr
    rw [hg _ (by decide)]
    exact h.noError
  · exact shallow_assoc _ h.shallow (by simp [levels])
  · rw [hg _ (by decide), hg _ (by decide)]
    exact h.onlyTxn

/-- What closes an account. -/
theorem writes_close {date : Date} (hd : CalendarDate date) {acc : Str} (ha : PlainName acc) :
    Writes (.map [(str% "date", .date date), (str% "dct", .kw (str% "close")), (str% "acc", .str acc)]) (closing date acc) := by
  refine ⟨⟨rfl, rfl, ⟨rfl, rfl, rfl⟩, rfl, rfl⟩, ?_, rfl, ?_, ⟨.inl rfl, fun p hp => by cases hp⟩, rfl, ?_, .inr rfl⟩
  · exact .map (by simp only [List.map_cons, List.map_nil]; decide) (real_cons (.date hd) (real_cons (.kw _) (real_one (.str _))))
  · refine ⟨⟨fun y hy => (by cases hy), fun y hy => (by cases hy), fun l hl p hp => by cases hl⟩, str% "close", rfl, ?_⟩
    refine ⟨fun k hk s h => ?_, fun h => ?_, fun h => ?_, fun h => ?_, fun h => ?_⟩
    · have : k = str% "acc" := by simpa [namesOfKind] using hk
      subst this
      have h : Data.str acc = .str s := h
      cases h
      exact ha
    all_goals exact absurd h (by decide)
  · simp [levels, levelsEntries]

end Clj
end Limabean
