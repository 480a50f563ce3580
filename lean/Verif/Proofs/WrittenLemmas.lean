/-
Data which stand for directives: the same with synthetic spans, and what the server reads of them.
-/
import Verif.Spec.Written
import Verif.Proofs.AutoLemmas

namespace Limabean

open Spec Clj

variable {E : Ext} {L : BookLib}

namespace Clj

/-! ### What data say does not depend on synthetic spans -/

/-- The postings are the same but for synthetic spans. -/
def PostingsAs (y x : Data) : Prop :=
  x.get (str% "postings") = y.get (str% "postings") ∨
    ∃ l l', y.get (str% "postings") = .vec l ∧ x.get (str% "postings") = .vec l' ∧ List.Forall₂ WithSpan l l'

/-- The rest is the same. -/
def RestAs (y x : Data) : Prop := ∀ k, k ≠ str% "span-p" → k ≠ str% "provenance" → k ≠ str% "postings" → x.get k = y.get k

theorem attachedIs_get {y x : Data} {a b : Option (List Str)} {c : Option (List (Str × MetaValue))}
    (h1 : x.get (str% "tags") = y.get (str% "tags")) (h2 : x.get (str% "links") = y.get (str% "links"))
    (h3 : x.get (str% "metadata") = y.get (str% "metadata")) (h : AttachedIs y a b c) : AttachedIs x a b c :=
  ⟨by rw [h1]; exact h.tags, by rw [h2]; exact h.links, by rw [h3]; exact h.metadata⟩

theorem postingIs_withSpan {y x : Data} {p : Raw.PostingSpec} (hx : WithSpan y x) (h : PostingIs y p) : PostingIs x p := by
  obtain ⟨-, hg⟩ := hx
  constructor
  · rw [hg _ (by decide)]; exact h.span
  · rw [hg _ (by decide)]; exact h.flag
  · rw [hg _ (by decide)]; exact h.acc
  · rw [hg _ (by decide)]; exact h.units
  · rw [hg _ (by decide)]; exact h.cur
  · rw [hg _ (by decide)]; exact h.costSpec
  · rw [hg _ (by decide)]; exact h.priceSpec
  · exact attachedIs_get (hg _ (by decide)) (hg _ (by decide)) (hg _ (by decide)) h.attached

theorem vecIs_withSpan {l l' : List Data} {ps : List Raw.PostingSpec} (h : List.Forall₂ WithSpan l l') (hp : List.Forall₂ PostingIs l ps) :
    List.Forall₂ PostingIs l' ps := by
  induction h generalizing ps with
  | nil => cases hp; exact .nil
  | cons h _ ih =>
    cases hp with
    | cons g gs => exact .cons (postingIs_withSpan h g) (ih gs)

theorem directiveIs_as {y x : Data} {d : Raw.Directive} (hg : RestAs y x) (hp : PostingsAs y x) (h : DirectiveIs y d) : DirectiveIs x d := by
  constructor
  · rw [hg _ (by decide) (by decide) (by decide)]; exact h.span
  · rw [hg _ (by decide) (by decide) (by decide)]; exact h.date
  · exact attachedIs_get (hg _ (by decide) (by decide) (by decide)) (hg _ (by decide) (by decide) (by decide))
      (hg _ (by decide) (by decide) (by decide)) h.attached
  · have hv := h.variant
    cases hd : d.variant with
    | transaction t =>
      rw [hd] at hv
      obtain ⟨h1, h2, h3, h4, l, h5, h6⟩ := hv
      refine ⟨by rw [hg _ (by decide) (by decide) (by decide)]; exact h1, by rw [hg _ (by decide) (by decide) (by decide)]; exact h2,
        by rw [hg _ (by decide) (by decide) (by decide)]; exact h3, by rw [hg _ (by decide) (by decide) (by decide)]; exact h4, ?_⟩
      rcases hp with hp | ⟨a, b, ha, hb, hab⟩
      · exact ⟨l, hp.trans h5, h6⟩
      · rw [ha] at h5
        cases h5
        exact ⟨b, hb, vecIs_withSpan hab h6⟩
    | _ =>
      rw [hd] at hv
      unfold VariantIs at hv ⊢
      simp only [hg _ (show str% "dct" ≠ str% "span-p" by decide) (by decide) (by decide),
        hg _ (show str% "cur" ≠ str% "span-p" by decide) (by decide) (by decide),
        hg _ (show str% "price" ≠ str% "span-p" by decide) (by decide) (by decide),
        hg _ (show str% "acc" ≠ str% "span-p" by decide) (by decide) (by decide),
        hg _ (show str% "units" ≠ str% "span-p" by decide) (by decide) (by decide),
        hg _ (show str% "tolerance" ≠ str% "span-p" by decide) (by decide) (by decide),
        hg _ (show str% "currencies" ≠ str% "span-p" by decide) (by decide) (by decide),
        hg _ (show str% "booking" ≠ str% "span-p" by decide) (by decide) (by decide),
        hg _ (show str% "source" ≠ str% "span-p" by decide) (by decide) (by decide),
        hg _ (show str% "path" ≠ str% "span-p" by decide) (by decide) (by decide),
        hg _ (show str% "comment" ≠ str% "span-p" by decide) (by decide) (by decide),
        hg _ (show str% "type" ≠ str% "span-p" by decide) (by decide) (by decide),
        hg _ (show str% "description" ≠ str% "span-p" by decide) (by decide) (by decide),
        hg _ (show str% "name" ≠ str% "span-p" by decide) (by decide) (by decide),
        hg _ (show str% "content" ≠ str% "span-p" by decide) (by decide) (by decide),
        hg _ (show str% "values" ≠ str% "span-p" by decide) (by decide) (by decide)]
      exact hv

theorem sendAttached_get {y x : Data} (h1 : x.get (str% "tags") = y.get (str% "tags")) (h2 : x.get (str% "links") = y.get (str% "links"))
    (h3 : x.get (str% "metadata") = y.get (str% "metadata")) (h : SendAttached y) : SendAttached x := by
  unfold SendAttached at h ⊢
  rw [h1, h2, h3]
  exact h

theorem sendPosting_withSpan {y x : Data} (hx : WithSpan y x) (h : SendPosting y) : SendPosting x := by
  obtain ⟨-, hg⟩ := hx
  obtain ⟨h1, h2, h3, h4, h5, h6⟩ := h
  refine ⟨?_, ?_, ?_, ?_, ?_, sendAttached_get (hg _ (by decide)) (hg _ (by decide)) (hg _ (by decide)) h6⟩
  all_goals rw [hg _ (by decide)]; assumption

theorem sendDirective_as {y x : Data} (hg : RestAs y x) (hp : PostingsAs y x) (h : SendDirective y) : SendDirective x := by
  obtain ⟨h1, kind, h2, h3⟩ := h
  refine ⟨sendAttached_get (hg _ (by decide) (by decide) (by decide)) (hg _ (by decide) (by decide) (by decide))
    (hg _ (by decide) (by decide) (by decide)) h1, kind, by rw [hg _ (by decide) (by decide) (by decide)]; exact h2, ?_, ?_, ?_, ?_, ?_⟩
  · intro k hk
    have hne : k ≠ str% "span-p" ∧ k ≠ str% "provenance" ∧ k ≠ str% "postings" := by
      unfold namesOfKind at hk
      refine ⟨?_, ?_, ?_⟩ <;> (rintro rfl; repeat' split at hk) <;> revert hk <;> decide
    rw [hg k hne.1 hne.2.1 hne.2.2]
    exact h3.names k hk
  · intro hk
    obtain ⟨g1, g2⟩ := h3.txn hk
    rcases hp with hp | ⟨a, b, ha, hb, hab⟩
    · rw [hp]
      exact ⟨g1, g2⟩
    · rw [hb]
      refine ⟨(fun h => by cases h), fun p hp => ?_⟩
      rw [ha] at g2
      obtain ⟨q, hq, hqp⟩ := forall₂_right hab hp
      exact sendPosting_withSpan hqp (g2 q hq)
  · intro hk
    rw [hg _ (by decide) (by decide) (by decide)]
    exact h3.price hk
  · intro hk
    rw [hg _ (by decide) (by decide) (by decide)]
    exact h3.opn hk
  · intro hk
    rw [hg _ (by decide) (by decide) (by decide)]
    exact h3.custom hk

theorem spansKept_as {y x : Data} (hg : RestAs y x) (hp : PostingsAs y x) (h : SpansKept y) : SpansKept x := by
  obtain ⟨h1, h2⟩ := h
  refine ⟨by unfold SpanKept; rw [hg _ (by decide) (by decide) (by decide)]; exact h1, fun p hpm => ?_⟩
  rcases hp with hp | ⟨a, b, ha, hb, hab⟩
  · rw [hp] at hpm
    exact h2 p hpm
  · rw [hb] at hpm
    rw [ha] at h2
    obtain ⟨q, hq, -, hqp⟩ := forall₂_right hab hpm
    have := h2 q hq
    unfold SpanKept at this ⊢
    rw [hqp _ (by decide)]
    exact this

/-! ### Data say what one directive says -/

theorem maybe_unique {α : Type} {P : Data → α → Prop} {R : α → α → Prop} (h0 : ∀ a, ¬ P .nil a) (h : ∀ {x a b}, P x a → P x b → R a b) {x : Data}
    {a b : Option α} (ha : Maybe P x a) (hb : Maybe P x b) : Option.Rel R a b := by
  cases a with
  | none =>
    cases b with
    | none => exact .none
    | some b => rw [show x = .nil from ha] at hb; exact absurd hb (h0 b)
  | some a =>
    cases b with
    | none => rw [show x = .nil from hb] at ha; exact absurd ha (h0 a)
    | some b => exact .some (h ha hb)

theorem optionRel_eq {α : Type} {a b : Option α} (h : Option.Rel Eq a b) : a = b := by
  cases h with
  | some h => rw [h]
  | none => rfl

theorem maybe_eq {α : Type} {P : Data → α → Prop} (h0 : ∀ a, ¬ P .nil a) (h : ∀ {x a b}, P x a → P x b → a = b) {x : Data}
    {a b : Option α} (ha : Maybe P x a) (hb : Maybe P x b) : a = b := optionRel_eq (maybe_unique (R := Eq) h0 h ha hb)

theorem sameSet_rel {α : Type} {a b : Option (List α)} (h : Option.Rel List.Perm a b) : SameSet a b := by
  cases h with
  | some h => exact h
  | none => trivial

theorem strIs_unique {x : Data} {a b : Str} (ha : StrIs x a) (hb : StrIs x b) : a = b := by
  unfold StrIs at ha hb; rw [ha] at hb; cases hb; rfl

theorem numIs_unique {x : Data} {a b : Dec} (ha : NumIs x a) (hb : NumIs x b) : a = b := by
  unfold NumIs at ha hb; rw [ha] at hb; cases hb; rfl

theorem dateIs_unique {x : Data} {a b : Date} (ha : DateIs x a) (hb : DateIs x b) : a = b := by
  unfold DateIs at ha hb; rw [ha] at hb; cases hb; rfl

theorem spanIs_unique {x : Data} {a b : Span} (ha : SpanIs x a) (hb : SpanIs x b) : a = b := by
  unfold SpanIs at ha hb
  rw [ha] at hb
  obtain ⟨a1, a2, a3⟩ := a
  obtain ⟨b1, b2, b3⟩ := b
  simp [ofSpan, ofNat] at hb
  simp [hb]

theorem bookingIs_unique {x : Data} {a b : Booking} (ha : BookingIs x a) (hb : BookingIs x b) : a = b := by
  unfold BookingIs at ha hb
  rw [ha] at hb
  cases a <;> cases b <;> first | rfl | (exfalso; revert hb; simp [bookingName])

theorem setIs_unique {x : Data} {a b : List Str} (ha : SetIs x a) (hb : SetIs x b) : a.Perm b := by
  obtain ⟨l, rfl, h1, h2⟩ := ha
  obtain ⟨l', e, h3, h4⟩ := hb
  cases e
  rw [List.perm_ext_iff_of_nodup h1 h3]
  intro t
  rw [h2, h4]

theorem metaIs_unique {x : Data} {a b : MetaValue} (ha : MetaIs x a) (hb : MetaIs x b) : a = b := by
  cases a with
  | amount u c =>
    cases b with
    | amount u' c' => rw [numIs_unique ha.1 hb.1, strIs_unique ha.2 hb.2]
    | _ =>
      exfalso
      have hb : x = ofMeta _ := hb
      have h1 := ha.1
      have h2 := ha.2
      rw [hb] at h1 h2
      revert h1 h2
      simp [ofMeta, Data.get, AMap.get, NumIs, StrIs]
  | _ =>
    cases b with
    | amount u c =>
      exfalso
      have ha : x = ofMeta _ := ha
      have h1 := hb.1
      have h2 := hb.2
      rw [ha] at h1 h2
      revert h1 h2
      simp [ofMeta, Data.get, AMap.get, NumIs, StrIs]
    | _ =>
      have ha : x = ofMeta _ := ha
      have hb : x = ofMeta _ := hb
      have hab := ha.symm.trans hb
      simp [ofMeta] at hab
      try simp [hab]

theorem metadataIs_unique {x : Data} {a b : List (Str × MetaValue)} (ha : MetadataIs x a) (hb : MetadataIs x b) : a.Perm b := by
  obtain ⟨l, rfl, h1, h2, h3⟩ := ha
  obtain ⟨l', e, h4, h5, h6⟩ := hb
  cases e
  have key : ∀ {a b : List (Str × MetaValue)}, (∀ k, k ∈ a.map Prod.fst ↔ k ∈ l.map Prod.fst) → (∀ k, k ∈ b.map Prod.fst ↔ k ∈ l.map Prod.fst) →
      (∀ k v m, (k, v) ∈ l → (k, m) ∈ a → MetaIs v m) → (∀ k v m, (k, v) ∈ l → (k, m) ∈ b → MetaIs v m) → ∀ p ∈ a, p ∈ b := by
    rintro a b g1 g2 g3 g4 ⟨k, m⟩ hp
    have hk := (g1 k).1 (List.mem_map_of_mem hp)
    obtain ⟨⟨k', v⟩, hv, rfl⟩ := List.mem_map.1 hk
    obtain ⟨⟨k'', m'⟩, hm, e⟩ := List.mem_map.1 ((g2 k').2 hk)
    simp only at e
    subst e
    rw [metaIs_unique (g3 _ _ _ hv hp) (g4 _ _ _ hv hm)]
    exact hm
  rw [List.perm_ext_iff_of_nodup (List.Nodup.of_map _ h1) (List.Nodup.of_map _ h4)]
  exact fun p => ⟨key h2 h5 h3 h6 p, key h5 h2 h6 h3 p⟩

theorem costSpecIs_unique {x : Data} {a b : Raw.CostSpec} (ha : CostSpecIs x a) (hb : CostSpecIs x b) : a = b := by
  have h1 := maybe_eq (P := NumIs) (fun _ h => by simp [NumIs] at h) numIs_unique ha.perUnit hb.perUnit
  have h2 := maybe_eq (P := NumIs) (fun _ h => by simp [NumIs] at h) numIs_unique ha.total hb.total
  have h3 := maybe_eq (P := StrIs) (fun _ h => by simp [StrIs] at h) strIs_unique ha.cur hb.cur
  have h4 := maybe_eq (P := DateIs) (fun _ h => by simp [DateIs] at h) dateIs_unique ha.date hb.date
  have h5 := maybe_eq (P := StrIs) (fun _ h => by simp [StrIs] at h) strIs_unique ha.label hb.label
  have h6 : a.merge = b.merge := Bool.eq_iff_iff.2 (ha.merge.trans hb.merge.symm)
  cases a
  cases b
  simp_all

theorem priceSpecIs_unique {x : Data} {a b : Raw.PriceSpec} (ha : PriceSpecIs x a) (hb : PriceSpecIs x b) : a = b := by
  have h1 := maybe_eq (P := NumIs) (fun _ h => by simp [NumIs] at h) numIs_unique ha.perUnit hb.perUnit
  have h2 := maybe_eq (P := NumIs) (fun _ h => by simp [NumIs] at h) numIs_unique ha.total hb.total
  have h3 := maybe_eq (P := StrIs) (fun _ h => by simp [StrIs] at h) strIs_unique ha.cur hb.cur
  cases a
  cases b
  simp_all

theorem priceIs_unique {x : Data} {a b : Raw.Price} (ha : PriceIs x a) (hb : PriceIs x b) : a = b := by
  have h1 := numIs_unique ha.perUnit hb.perUnit
  have h2 := maybe_eq (P := NumIs) (fun _ h => by simp [NumIs] at h) numIs_unique ha.total hb.total
  have h3 := strIs_unique ha.cur hb.cur
  cases a
  cases b
  simp_all

theorem postingIs_unique {x : Data} {a b : Raw.PostingSpec} (ha : PostingIs x a) (hb : PostingIs x b) : ReorderedPosting a b where
  tags := sameSet_rel (maybe_unique (P := SetIs) (R := List.Perm) (fun _ h => by obtain ⟨_, h, _⟩ := h; cases h) setIs_unique ha.attached.tags hb.attached.tags)
  links := sameSet_rel (maybe_unique (P := SetIs) (R := List.Perm) (fun _ h => by obtain ⟨_, h, _⟩ := h; cases h) setIs_unique ha.attached.links hb.attached.links)
  metadata := sameSet_rel (maybe_unique (P := MetadataIs) (R := List.Perm) (fun _ h => by obtain ⟨_, h, _⟩ := h; cases h) metadataIs_unique
    ha.attached.metadata hb.attached.metadata)
  rest := by
    have h1 := maybe_eq (P := SpanIs) (fun _ h => by simp [SpanIs, ofSpan] at h) spanIs_unique ha.span hb.span
    have h2 := maybe_eq (P := StrIs) (fun _ h => by simp [StrIs] at h) strIs_unique ha.flag hb.flag
    have h3 := strIs_unique ha.acc hb.acc
    have h4 := maybe_eq (P := NumIs) (fun _ h => by simp [NumIs] at h) numIs_unique ha.units hb.units
    have h5 := maybe_eq (P := StrIs) (fun _ h => by simp [StrIs] at h) strIs_unique ha.cur hb.cur
    have h6 := maybe_eq (P := CostSpecIs) (fun _ h => h.given rfl) costSpecIs_unique ha.costSpec hb.costSpec
    have h7 := maybe_eq (P := PriceSpecIs) (fun _ h => h.given rfl) priceSpecIs_unique ha.priceSpec hb.priceSpec
    cases a
    cases b
    simp_all

theorem forall₂_unique {α : Type} {P : Data → α → Prop} {R : α → α → Prop} (h : ∀ x a b, P x a → P x b → R a b) {xs : List Data}
    {a b : List α} (ha : List.Forall₂ P xs a) (hb : List.Forall₂ P xs b) : List.Forall₂ R a b := by
  induction ha generalizing b with
  | nil => cases hb; exact .nil
  | cons h1 _ ih =>
    cases hb with
    | cons h2 hb => exact .cons (h _ _ _ h1 h2) (ih hb)

theorem vecIs_unique {α : Type} {P : Data → α → Prop} {R : α → α → Prop} (h : ∀ x a b, P x a → P x b → R a b) {x : Data}
    {a b : List α} (ha : VecIs P x a) (hb : VecIs P x b) : List.Forall₂ R a b := by
  obtain ⟨l, rfl, h1⟩ := ha
  obtain ⟨l', e, h2⟩ := hb
  cases e
  exact forall₂_unique h h1 h2

theorem reordered_txn {t u : Raw.Transaction} (h : List.Forall₂ ReorderedPosting t.postings u.postings)
    (h' : { t with postings := [] } = { u with postings := [] }) : ReorderedVariant (.transaction t) (.transaction u) := ⟨h, h'⟩

theorem variantIs_unique {x : Data} {a b : Raw.Variant} (ha : VariantIs x a) (hb : VariantIs x b) : ReorderedVariant a b := by
  have hk : ∀ {s t : Str}, x.get (str% "dct") = .kw s → x.get (str% "dct") = .kw t → s = t := by
    intro s t h1 h2
    rw [h1] at h2
    cases h2
    rfl
  cases a with
  | transaction t =>
    cases b with
    | transaction u =>
      have h1 := strIs_unique ha.2.1 hb.2.1
      have h2 := maybe_eq (P := StrIs) (fun _ h => by simp [StrIs] at h) strIs_unique ha.2.2.1 hb.2.2.1
      have h3 := maybe_eq (P := StrIs) (fun _ h => by simp [StrIs] at h) strIs_unique ha.2.2.2.1 hb.2.2.2.1
      refine reordered_txn (vecIs_unique (P := PostingIs) (R := ReorderedPosting) (fun _ _ _ => postingIs_unique) ha.2.2.2.2 hb.2.2.2.2) ?_
      cases t
      cases u
      simp_all
    | _ => exact absurd (hk ha.1 hb.1) (by decide)
  | opn o =>
    cases b with
    | opn o' =>
      have h1 := strIs_unique ha.2.1 hb.2.1
      have h2 := maybe_eq (P := BookingIs) (fun _ h => by simp [BookingIs] at h) bookingIs_unique ha.2.2.2 hb.2.2.2
      have h3 := sameSet_rel (maybe_unique (P := SetIs) (R := List.Perm) (fun _ h => by obtain ⟨_, h, _⟩ := h; cases h) setIs_unique ha.2.2.1 hb.2.2.1)
      refine ⟨h3, ?_⟩
      cases o
      cases o'
      simp_all
    | _ => exact absurd (hk ha.1 hb.1) (by decide)
  | price p =>
    cases b with
    | price q =>
      have h1 := strIs_unique ha.2.1 hb.2.1
      have h2 := priceIs_unique ha.2.2 hb.2.2
      cases p
      cases q
      simp_all [ReorderedVariant]
    | _ => exact absurd (hk ha.1 hb.1) (by decide)
  | balance p =>
    cases b with
    | balance q =>
      have h1 := strIs_unique ha.2.1 hb.2.1
      have h2 := numIs_unique ha.2.2.1 hb.2.2.1
      have h3 := strIs_unique ha.2.2.2.1 hb.2.2.2.1
      have h4 := maybe_eq (P := NumIs) (fun _ h => by simp [NumIs] at h) numIs_unique ha.2.2.2.2 hb.2.2.2.2
      cases p
      cases q
      simp_all [ReorderedVariant]
    | _ => exact absurd (hk ha.1 hb.1) (by decide)
  | close p =>
    cases b with
    | close q =>
      have h1 := strIs_unique ha.2 hb.2
      cases p
      cases q
      simp_all [ReorderedVariant]
    | _ => exact absurd (hk ha.1 hb.1) (by decide)
  | commodity p =>
    cases b with
    | commodity q =>
      have h1 := strIs_unique ha.2 hb.2
      cases p
      cases q
      simp_all [ReorderedVariant]
    | _ => exact absurd (hk ha.1 hb.1) (by decide)
  | pad p =>
    cases b with
    | pad q =>
      have h1 := strIs_unique ha.2.1 hb.2.1
      have h2 := strIs_unique ha.2.2 hb.2.2
      cases p
      cases q
      simp_all [ReorderedVariant]
    | _ => exact absurd (hk ha.1 hb.1) (by decide)
  | document p =>
    cases b with
    | document q =>
      have h1 := strIs_unique ha.2.1 hb.2.1
      have h2 := strIs_unique ha.2.2 hb.2.2
      cases p
      cases q
      simp_all [ReorderedVariant]
    | _ => exact absurd (hk ha.1 hb.1) (by decide)
  | note p =>
    cases b with
    | note q =>
      have h1 := strIs_unique ha.2.1 hb.2.1
      have h2 := strIs_unique ha.2.2 hb.2.2
      cases p
      cases q
      simp_all [ReorderedVariant]
    | _ => exact absurd (hk ha.1 hb.1) (by decide)
  | event p =>
    cases b with
    | event q =>
      have h1 := strIs_unique ha.2.1 hb.2.1
      have h2 := strIs_unique ha.2.2 hb.2.2
      cases p
      cases q
      simp_all [ReorderedVariant]
    | _ => exact absurd (hk ha.1 hb.1) (by decide)
  | query p =>
    cases b with
    | query q =>
      have h1 := strIs_unique ha.2.1 hb.2.1
      have h2 := strIs_unique ha.2.2 hb.2.2
      cases p
      cases q
      simp_all [ReorderedVariant]
    | _ => exact absurd (hk ha.1 hb.1) (by decide)
  | custom p =>
    cases b with
    | custom q =>
      have h1 := strIs_unique ha.2.1 hb.2.1
      have h2 := List.forall₂_eq_eq_eq ▸ (vecIs_unique (P := MetaIs) (R := Eq) (fun _ _ _ => metaIs_unique) ha.2.2 hb.2.2)
      cases p
      cases q
      simp_all [ReorderedVariant]
    | _ => exact absurd (hk ha.1 hb.1) (by decide)

/-- Data say what one directive says, up to the order of sets and maps. -/
theorem directiveIs_unique {x : Data} {a b : Raw.Directive} (ha : DirectiveIs x a) (hb : DirectiveIs x b) : ReorderedDirective a b where
  span := maybe_eq (P := SpanIs) (fun _ h => by simp [SpanIs, ofSpan] at h) spanIs_unique ha.span hb.span
  date := dateIs_unique ha.date hb.date
  tags := sameSet_rel (maybe_unique (P := SetIs) (R := List.Perm) (fun _ h => by obtain ⟨_, h, _⟩ := h; cases h) setIs_unique ha.attached.tags hb.attached.tags)
  links := sameSet_rel (maybe_unique (P := SetIs) (R := List.Perm) (fun _ h => by obtain ⟨_, h, _⟩ := h; cases h) setIs_unique ha.attached.links hb.attached.links)
  metadata := sameSet_rel (maybe_unique (P := MetadataIs) (R := List.Perm) (fun _ h => by obtain ⟨_, h, _⟩ := h; cases h) metadataIs_unique
    ha.attached.metadata hb.attached.metadata)
  variant := variantIs_unique ha.variant hb.variant

end Clj
end Limabean
