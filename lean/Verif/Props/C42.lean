/-
C42: booked directives and postings regain the spans and provenance of the raw ones they stem from.
-/
import Verif.Clj.Resolve
import Verif.Spec.ClientData
import Verif.Props.Examples

namespace Limabean

open Spec Clj

/-- The datum is a map. -/
def Spec.IsMap : Data → Prop
  | .map _ => True
  | _ => False

/-- The fields which tell where a directive comes from. -/
def Spec.isOrigin (k : Str) : Bool := k == str% "span" || k == str% "span-p" || k == str% "provenance"

/-- `r` is `b` with the span, synthetic span and provenance which `raw` has. -/
structure Spec.Located (b raw r : Data) : Prop where
  origin : ∀ k, isOrigin k = true → raw.has k = true → r.get k = raw.get k
  kept : ∀ k, isOrigin k = false ∨ raw.has k = false → r.get k = b.get k
  entries : ∀ k, r.has k = (b.has k || (isOrigin k && raw.has k))

/-- The element of a vector at an index, if the index is a natural number in range. -/
def Spec.at? (l : List Data) : Data → Option Data
  | .num ⟨m, 0⟩ => if 0 ≤ m then l[m.toNat]? else none
  | _ => none

namespace Clj

theorem isMap_assoc {m : Data} (h : IsMap m) (k : Str) (v : Data) : IsMap (m.assoc k v) := by
  cases m <;> first | trivial | cases h

theorem get_assoc {m : Data} (h : IsMap m) (k k' : Str) (v : Data) : (m.assoc k v).get k' = if k' = k then v else m.get k' := by
  cases m <;> try cases h
  simp only [Data.assoc, Data.get, AMap.get_set, eq_comm (a := k')]
  split <;> rfl

theorem has_assoc {m : Data} (h : IsMap m) (k k' : Str) (v : Data) : (m.assoc k v).has k' = (decide (k' = k) || m.has k') := by
  cases m <;> try cases h
  simp only [Data.assoc, Data.has, AMap.get_set, eq_comm (a := k')]
  by_cases e : k = k' <;> simp [e]

theorem has_of_truthy {m : Data} {k : Str} (h : (m.get k).truthy = true) : m.has k = true := by
  cases m with
  | map l =>
    simp only [Data.get, Data.has] at *
    cases hg : AMap.get l k with
    | none => rw [hg] at h; cases h
    | some v => rfl
  | _ => cases h

theorem isMap_copyField {m : Data} (h : IsMap m) (raw : Data) (k : Str) : IsMap (copyField raw m k) := by
  unfold copyField
  split
  · exact isMap_assoc h _ _
  · exact h

theorem get_copyField {m : Data} (h : IsMap m) (raw : Data) (k k' : Str) :
    (copyField raw m k).get k' = if k' = k ∧ raw.has k = true then raw.get k else m.get k' := by
  unfold copyField
  split
  · rename_i hr
    rw [get_assoc h]
    simp [hr]
  · rename_i hr
    simp [hr]

theorem has_copyField {m : Data} (h : IsMap m) (raw : Data) (k k' : Str) :
    (copyField raw m k).has k' = (m.has k' || (decide (k' = k) && raw.has k)) := by
  unfold copyField
  cases hr : raw.has k with
  | true =>
    rw [if_pos rfl, has_assoc h, Bool.and_true, Bool.or_comm]
  | false =>
    simp

theorem isMap_merge {b : Data} (h : IsMap b) (raw : Data) : IsMap (mergeSpanAndProvenance b raw) :=
  isMap_copyField (isMap_copyField (isMap_copyField h _ _) _ _) _ _

theorem merge_located {b : Data} (h : IsMap b) (raw : Data) : Spec.Located b raw (mergeSpanAndProvenance b raw) := by
  have key : ∀ k, (mergeSpanAndProvenance b raw).get k = if isOrigin k = true ∧ raw.has k = true then raw.get k else b.get k := by
    intro k
    unfold mergeSpanAndProvenance
    rw [get_copyField (isMap_copyField (isMap_copyField h _ _) _ _), get_copyField (isMap_copyField h _ _), get_copyField h]
    by_cases h1 : k = str% "provenance"
    · subst h1; simp [isOrigin]
    · by_cases h2 : k = str% "span-p"
      · subst h2; simp [isOrigin]
      · by_cases h3 : k = str% "span"
        · subst h3; simp [isOrigin]
        · simp [isOrigin, h1, h2, h3]
  refine ⟨?_, ?_, ?_⟩
  · intro k h1 h2
    rw [key]
    simp [h1, h2]
  · intro k h1
    rw [key]
    rcases h1 with h1 | h1 <;> simp [h1]
  · intro k
    unfold mergeSpanAndProvenance
    rw [has_copyField (isMap_copyField (isMap_copyField h _ _) _ _), has_copyField (isMap_copyField h _ _), has_copyField h]
    by_cases h1 : k = str% "provenance"
    · subst h1; simp [isOrigin]
    · by_cases h2 : k = str% "span-p"
      · subst h2; simp [isOrigin]
      · by_cases h3 : k = str% "span"
        · subst h3; simp [isOrigin]
        · simp [isOrigin, h1, h2, h3]

theorem nth_eq (l : List Data) (i : Data) : (Data.vec l).nth i = (Spec.at? l i).getD .nil := by
  unfold Data.nth Spec.at?
  cases i with
  | num d =>
    obtain ⟨m, s⟩ := d
    cases s with
    | zero =>
      simp only
      split <;> rfl
    | succ n => rfl
  | _ => rfl

theorem has_nil (k : Str) : Data.nil.has k = false := rfl

end Clj

/-- The datum at an index of a vector, `nil` if there is none. -/
def Spec.pick (v i : Data) : Data :=
  match v with
  | .vec l => (at? l i).getD .nil
  | _ => .nil

/-- `r` is the booked directive `b` with span, synthetic span and provenance of the raw directive at its index, its postings with
those of the postings of this raw directive at their indexes. -/
structure Spec.Resolved (raw : Data) (b r : Data) : Prop where
  origin : ∀ k, isOrigin k = true → (pick raw (b.get (str% "idx"))).has k = true → r.get k = (pick raw (b.get (str% "idx"))).get k
  kept : ∀ k, k ≠ str% "postings" → isOrigin k = false ∨ (pick raw (b.get (str% "idx"))).has k = false → r.get k = b.get k
  noPostings : b.get (str% "postings") = .nil → r.get (str% "postings") = .nil
  postings : ∀ ps, b.get (str% "postings") = .vec ps → ∃ qs, r.get (str% "postings") = .vec qs ∧ List.Forall₂ (fun p q =>
    Located p (pick ((pick raw (b.get (str% "idx"))).get (str% "postings")) (p.get (str% "idx"))) q) ps qs
  entries : ∀ k, r.has k = (b.has k || (isOrigin k && (pick raw (b.get (str% "idx"))).has k))

/-- The postings are maps. -/
def Spec.PostingsAreMaps (b : Data) : Prop := ∀ ps, b.get (str% "postings") = .vec ps → ∀ p ∈ ps, IsMap p

theorem nth_pick (v i : Data) : v.nth i = pick v i := by
  cases v with
  | vec l => exact nth_eq l i
  | _ => rfl

theorem forall₂_map {α β : Type} {R : α → β → Prop} {f : α → β} {l : List α} (h : ∀ a ∈ l, R a (f a)) :
    List.Forall₂ R l (l.map f) := by
  induction l with
  | nil => exact .nil
  | cons a l ih => exact .cons (h a (by simp)) (ih fun x hx => h x (by simp [hx]))

/-- C42: the resolved directives are the booked ones, each with the origin of the raw directive at its index, and its postings with
the origin of the raw postings at theirs. `raw` are the directives of the parser or of the raw plugins. -/
theorem C42_directives {booked : List Data} (raw : Data) (hb : ∀ b ∈ booked, IsMap b ∧ PostingsAreMaps b) :
    ∃ l, resolveDirectives (.vec booked) raw = .vec l ∧ List.Forall₂ (Resolved raw) booked l := by
  refine ⟨_, rfl, forall₂_map fun b h => ?_⟩
  obtain ⟨h1, h2⟩ := hb b h
  unfold resolveDirective
  rw [nth_pick]
  dsimp only
  have hl := merge_located h1 (pick raw (b.get (str% "idx")))
  have hm := isMap_merge h1 (pick raw (b.get (str% "idx")))
  generalize mergeSpanAndProvenance b (pick raw (b.get (str% "idx"))) = m at hl hm ⊢
  have hp : m.get (str% "postings") = b.get (str% "postings") := hl.kept _ (Or.inl rfl)
  split
  · rename_i ht
    refine ⟨fun k hk hr => ?_, fun k hk hr => ?_, fun hn => ?_, fun ps hps => ?_, fun k => ?_⟩
    · rw [get_assoc hm, if_neg (by rintro rfl; cases hk)]
      exact hl.origin k hk hr
    · rw [get_assoc hm, if_neg hk]
      exact hl.kept k hr
    · rw [hn] at ht; cases ht
    · rw [get_assoc hm, if_pos rfl, hp, hps]
      refine ⟨_, rfl, forall₂_map fun p hp => ?_⟩
      unfold resolvePosting
      rw [nth_pick]
      exact merge_located (h2 ps hps p hp) _
    · rw [has_assoc hm, hl.entries]
      by_cases e : k = str% "postings"
      · subst e
        rw [has_of_truthy ht]
        simp
      · simp [e]
  · rename_i ht
    refine ⟨fun k hk hr => hl.origin k hk hr, fun k hk hr => hl.kept k hr, fun hn => by rw [hp, hn], fun ps hps => ?_, hl.entries⟩
    rw [hps] at ht
    exact absurd rfl ht

/-- The datum of a span which may be missing. -/
def Spec.spanDatum : Option Span → Data
  | some s => ofSpan s
  | none => .nil

/-- The span of the raw posting at a position of the ledger; a posting without a position has none. -/
def Spec.rawPostingSpan (ds : List Raw.Directive) (i : Nat) (j : Option Nat) : Option Span := do
  let d ← ds[i]?
  match d.variant, j with
  | .transaction t, some j => (t.postings[j]?).bind (·.span)
  | _, _ => none


namespace Clj

theorem get_append (a b : List (Str × Data)) (k : Str) : AMap.get (a ++ b) k = (AMap.get a k).or (AMap.get b k) := by
  induction a with
  | nil => rfl
  | cons p a ih =>
    obtain ⟨k', v⟩ := p
    simp only [List.cons_append, AMap.get]
    split
    · rfl
    · exact ih

theorem get_optEntry {α : Type} (k k' : Str) (x : Option α) (f : α → Data) :
    AMap.get (optEntry k x f) k' = if k = k' then x.map f else none := by
  cases x with
  | none => simp [optEntry]
  | some a => simp [optEntry, AMap.get]

theorem variant_span (ord : List Data → List Data) (v : Raw.Variant) : AMap.get (ofVariant ord v) (str% "span") = none := by
  cases v <;> simp [ofVariant, get_append, get_optEntry, AMap.get]

theorem variant_postings (ord : List Data → List Data) (v : Raw.Variant) : AMap.get (ofVariant ord v) (str% "postings") =
    match v with | .transaction t => some (.vec (t.postings.map (ofPosting ord))) | _ => none := by
  cases v <;> simp [ofVariant, get_append, get_optEntry, AMap.get]

theorem bookedVariant_postings (ord : List Data → List Data) (v : Booked.Variant) : AMap.get (ofBookedVariant ord v) (str% "postings") =
    match v with | .transaction t => some (.vec (t.postings.map (ofBookedPosting ord))) | _ => none := by
  cases v <;> simp [ofBookedVariant, ofVariant, get_append, get_optEntry, AMap.get]

theorem variant_get (ord : List Data → List Data) (v : Raw.Variant) {k : Str} (hk : k = str% "span" ∨ k = str% "span-p" ∨ k = str% "provenance") :
    AMap.get (ofVariant ord v) k = none := by
  rcases hk with rfl | rfl | rfl <;> cases v <;> simp [ofVariant, get_append, get_optEntry, AMap.get]

theorem bookedVariant_get (ord : List Data → List Data) (v : Booked.Variant) {k : Str}
    (hk : k = str% "span" ∨ k = str% "span-p" ∨ k = str% "provenance") : AMap.get (ofBookedVariant ord v) k = none := by
  rcases hk with rfl | rfl | rfl <;> cases v <;> simp [ofBookedVariant, ofVariant, get_append, get_optEntry, AMap.get]

end Clj

namespace Clj

/-- A raw element: it has at most a span. -/
structure RawLike (x : Data) (sp : Option Span) : Prop where
  span : x.get (str% "span") = spanDatum sp
  has : x.has (str% "span") = sp.isSome
  noSpanP : x.has (str% "span-p") = false
  noProvenance : x.has (str% "provenance") = false

theorem rawLike_nil : RawLike .nil none := ⟨rfl, rfl, rfl, rfl⟩

theorem directive_rawLike (ord : List Data → List Data) (d : Raw.Directive) : RawLike (ofDirective ord d) d.span := by
  refine ⟨?_, ?_, ?_, ?_⟩
  · simp only [ofDirective, Data.get, get_append, get_optEntry, variant_get ord d.variant (Or.inl rfl)]
    cases d.span <;> simp [AMap.get, spanDatum]
  · simp only [ofDirective, Data.has, get_append, get_optEntry, variant_get ord d.variant (Or.inl rfl)]
    cases d.span <;> simp [AMap.get]
  · simp [ofDirective, Data.has, get_append, get_optEntry, variant_get ord d.variant (Or.inr (Or.inl rfl)), AMap.get]
  · simp [ofDirective, Data.has, get_append, get_optEntry, variant_get ord d.variant (Or.inr (Or.inr rfl)), AMap.get]

theorem posting_rawLike (ord : List Data → List Data) (d : Raw.PostingSpec) : RawLike (ofPosting ord d) d.span := by
  refine ⟨?_, ?_, ?_, ?_⟩
  · simp only [ofPosting, Data.get, get_append, get_optEntry]
    cases d.span <;> simp [AMap.get, spanDatum]
  · simp only [ofPosting, Data.has, get_append, get_optEntry]
    cases d.span <;> simp [AMap.get]
  · simp [ofPosting, Data.has, get_append, get_optEntry, AMap.get]
  · simp [ofPosting, Data.has, get_append, get_optEntry, AMap.get]

/-- What a booked element has once it is located. -/
theorem located_rawLike {b raw r : Data} {sp : Option Span} (h : RawLike raw sp) (hs : b.get (str% "span") = .nil) {P : Str → Prop}
    (hP : ¬ P (str% "span")) (ho : ∀ k, isOrigin k = true → raw.has k = true → r.get k = raw.get k)
    (hk : ∀ k, ¬ P k → isOrigin k = false ∨ raw.has k = false → r.get k = b.get k) :
    r.get (str% "span") = spanDatum sp ∧ ∀ k, k ≠ str% "span" → ¬ P k → r.get k = b.get k := by
  constructor
  · cases sp with
    | some s => rw [ho _ rfl h.has, h.span]
    | none => rw [hk _ hP (Or.inr h.has), hs]; rfl
  · intro k h1 h2
    refine hk k h2 ?_
    by_cases e : k = str% "span-p"
    · exact Or.inr (e ▸ h.noSpanP)
    · by_cases e' : k = str% "provenance"
      · exact Or.inr (e' ▸ h.noProvenance)
      · exact Or.inl (by simp [isOrigin, h1, e, e'])

theorem pick_nat (l : List Data) (n : Nat) : pick (.vec l) (ofNat n) = (l[n]?).getD .nil := by
  simp [pick, at?, ofNat]

theorem booked_idx (ord : List Data → List Data) (b : Booked.Directive) : (ofBooked ord b).get (str% "idx") = ofNat b.idx := rfl

theorem booked_span (ord : List Data → List Data) (b : Booked.Directive) : (ofBooked ord b).get (str% "span") = .nil := by
  simp [ofBooked, Data.get, get_append, get_optEntry, bookedVariant_get ord b.variant (Or.inl rfl), AMap.get]

theorem booked_postings (ord : List Data → List Data) (b : Booked.Directive) : (ofBooked ord b).get (str% "postings") =
    match b.variant with | .transaction t => .vec (t.postings.map (ofBookedPosting ord)) | _ => .nil := by
  simp only [ofBooked, Data.get, get_append, get_optEntry, bookedVariant_postings, AMap.get]
  cases b.variant <;> simp

theorem directive_postings (ord : List Data → List Data) (b : Raw.Directive) : (ofDirective ord b).get (str% "postings") =
    match b.variant with | .transaction t => .vec (t.postings.map (ofPosting ord)) | _ => .nil := by
  simp only [ofDirective, Data.get, get_append, get_optEntry, variant_postings, AMap.get]
  cases b.variant <;> simp

theorem bookedPosting_idx (ord : List Data → List Data) (p : Booked.Posting) : (ofBookedPosting ord p).get (str% "idx") =
    match p.idx with | some n => ofNat n | none => .nil := by
  simp only [ofBookedPosting, Data.get, get_append, get_optEntry]
  cases p.idx <;> simp [AMap.get]

theorem bookedPosting_span (ord : List Data → List Data) (p : Booked.Posting) : (ofBookedPosting ord p).get (str% "span") = .nil := by
  simp [ofBookedPosting, Data.get, get_append, get_optEntry, AMap.get]

/-- The raw directive at an index. -/
theorem pick_rawLike (ord : List Data → List Data) (ds : List Raw.Directive) (i : Nat) :
    RawLike (pick (.vec (ds.map (ofDirective ord))) (ofNat i)) ((ds[i]?).bind (·.span)) := by
  rw [pick_nat, List.getElem?_map]
  cases ds[i]? with
  | none => exact rawLike_nil
  | some d => exact directive_rawLike ord d

/-- The raw posting at an index. -/
theorem pick_posting_rawLike (ord : List Data → List Data) (ds : List Raw.Directive) (i : Nat) (j : Option Nat) :
    RawLike (pick ((pick (.vec (ds.map (ofDirective ord))) (ofNat i)).get (str% "postings"))
      (match j with | some n => ofNat n | none => .nil)) (rawPostingSpan ds i j) := by
  rw [pick_nat, List.getElem?_map]
  unfold rawPostingSpan
  cases ds[i]? with
  | none => exact rawLike_nil
  | some d =>
    simp only [Option.map_some, Option.getD_some, directive_postings]
    cases hv : d.variant with
    | transaction t =>
      cases j with
      | none =>
        change RawLike .nil (match d.variant, (none : Option Nat) with
          | .transaction t, some j => (t.postings[j]?).bind (·.span) | _, _ => none)
        rw [hv]
        exact rawLike_nil
      | some n =>
        simp only [pick_nat, List.getElem?_map]
        change RawLike _ (match d.variant, some n with | .transaction t, some j => (t.postings[j]?).bind (·.span) | _, _ => none)
        rw [hv]
        simp only
        cases t.postings[n]? with
        | none => exact rawLike_nil
        | some p => exact posting_rawLike ord p
    | _ =>
      change RawLike _ (match d.variant, j with | .transaction t, some j => (t.postings[j]?).bind (·.span) | _, _ => none)
      rw [hv]
      exact rawLike_nil

end Clj

theorem forall₂_of_map {α β γ : Type} {R : β → γ → Prop} {S : α → γ → Prop} {f : α → β} {l : List α} {l' : List γ}
    (h : List.Forall₂ R (l.map f) l') (hs : ∀ a ∈ l, ∀ c, R (f a) c → S a c) : List.Forall₂ S l l' := by
  induction l generalizing l' with
  | nil => cases h; exact .nil
  | cons a l ih =>
    cases h with
    | cons h h' => exact .cons (hs a (by simp) _ h) (ih h' fun x hx => hs x (by simp [hx]))

/-- C42, for a ledger without raw plugins: each booked directive has the span of the raw directive at its index; each of its postings
has the span of the raw posting at its index in that directive; postings without an index, which were generated, have none; all
other fields are as booked. -/
theorem C42_ledger (ord : List Data → List Data) (ds : List Raw.Directive) (out : List Booked.Directive) :
    ∃ l, resolveDirectives (.vec (out.map (ofBooked ord))) (.vec (ds.map (ofDirective ord))) = .vec l ∧
      List.Forall₂ (fun b r =>
        r.get (str% "span") = spanDatum ((ds[b.idx]?).bind (·.span)) ∧
        (∀ k, k ≠ str% "span" → k ≠ str% "postings" → r.get k = (ofBooked ord b).get k) ∧
        ∀ t, b.variant = .transaction t → ∃ qs, r.get (str% "postings") = .vec qs ∧ List.Forall₂ (fun p q =>
          q.get (str% "span") = spanDatum (rawPostingSpan ds b.idx p.idx) ∧
          ∀ k, k ≠ str% "span" → q.get k = (ofBookedPosting ord p).get k) t.postings qs) out l := by
  obtain ⟨l, h1, h2⟩ := C42_directives (booked := out.map (ofBooked ord)) (.vec (ds.map (ofDirective ord))) (by
    intro b hb
    obtain ⟨d, -, rfl⟩ := List.mem_map.1 hb
    refine ⟨trivial, fun ps hps p hp => ?_⟩
    rw [booked_postings] at hps
    cases hv : d.variant with
    | transaction t =>
      rw [hv] at hps
      cases hps
      obtain ⟨q, -, rfl⟩ := List.mem_map.1 hp
      trivial
    | _ => rw [hv] at hps; cases hps)
  refine ⟨l, h1, forall₂_of_map h2 fun b _ r h => ?_⟩
  obtain ⟨ho, hk, -, hp⟩ := h
  rw [booked_idx] at ho hk hp
  have := located_rawLike (P := (· = str% "postings")) (pick_rawLike ord ds b.idx) (booked_span ord b) (by decide) ho hk
  refine ⟨this.1, this.2, fun t ht => ?_⟩
  obtain ⟨qs, h3, h4⟩ := hp _ (by rw [booked_postings, ht])
  refine ⟨qs, h3, forall₂_of_map h4 fun p _ q h => ?_⟩
  rw [bookedPosting_idx] at h
  have := located_rawLike (P := fun _ => False) (pick_posting_rawLike ord ds b.idx p.idx) (bookedPosting_span ord p) id h.origin
    (fun k _ => h.kept k)
  exact ⟨this.1, fun k hk => this.2 k hk id⟩

/-- A booked transaction whose second posting was interpolated, from a raw transaction with spans. -/
example : (resolveDirectives
    (.vec [ofBooked id { idx := 1, date := Toy.day 5, variant := .transaction { flag := str% "*", postings :=
      [{ idx := some 0, acc := Ex.current, units := ⟨-1250, 2⟩, cur := Ex.nzd }, { idx := none, acc := Ex.food, units := ⟨1250, 2⟩, cur := Ex.nzd }] } }])
    (.vec ([Ex.lunch, { Ex.lunch with span := some ⟨0, 10, 90⟩, variant := .transaction { flag := str% "*", postings :=
      [{ span := some ⟨0, 30, 60⟩, acc := Ex.current }] } }].map (ofDirective id)))).elems.map (fun r =>
      (r.get (str% "span"), (r.get (str% "postings")).elems.map (·.get (str% "span")))) =
    [(ofSpan ⟨0, 10, 90⟩, [ofSpan ⟨0, 30, 60⟩, .nil])] := rfl

end Limabean
