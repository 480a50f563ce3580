/-
C112: the front end does not end its server. Loading a beanfile, with whatever plugins, and printing its errors leave the server running,
unless plugins make up places, or a pad of the directives which are booked has a source which was not opened before its assertion.
-/
import Verif.Props.C50
import Verif.Props.C66
import Verif.Props.C77
import Verif.Props.C99

namespace Limabean

open Spec Clj

variable {E : Ext} {L : BookLib}

/-- A directive mentions a place: in itself or in one of its postings, as its place in the beanfile or as a synthetic place. -/
def Spec.MentionsPlace (ordm : List (Str × Json) → List (Str × Json)) (d : Data) (sp : Span) : Prop :=
  ∃ e, (e = d ∨ e ∈ (d.get (str% "postings")).elems) ∧ ∃ k, (k = str% "span" ∨ k = str% "span-p") ∧ Wire.decSpan (toJson ordm (e.get k)) = some sp

/-- A plugin makes up no places: what it makes mentions only places which directives mention that it has received. -/
def Spec.InventsNoPlaces (ordm : List (Str × Json) → List (Str × Json)) (p : Plugin) : Prop :=
  ∀ l d, (.new d ∈ p.step l ∨ .new d ∈ p.finish l) → ∀ sp, MentionsPlace ordm d sp → ∃ d' ∈ l, MentionsPlace ordm d' sp

/-- The directives which were to be booked: those of the beanfile, or those which the raw plugins have made, as the server reads them. -/
def Spec.Booked (ordm : List (Str × Json) → List (Str × Json)) (p : Parsed) (m : LoadedBeans E) (ds : List Raw.Directive) : Prop :=
  match m.rawXfDirectives with
  | none => ds = p.directives
  | some xs => Json.all Wire.decDirective (xs.map (toJson ordm)) = some ds

namespace Clj

variable {ordm : List (Str × Json) → List (Str × Json)}

theorem get_assoc_or (m : Data) (k k' : Str) (v : Data) : (m.assoc k v).get k' = m.get k' ∨ k' = k ∧ (m.assoc k v).get k' = v := by
  cases m with
  | map l =>
    by_cases h : k' = k
    · right; refine ⟨h, ?_⟩; subst h; simp [Data.assoc, Data.get]
    · left; rw [Data.assoc, Data.get, AMap.get_set, if_neg fun e => h e.symm]; rfl
  | nil =>
    by_cases h : k' = k
    · right; subst h; exact ⟨rfl, by simp [Data.assoc, Data.get, AMap.get]⟩
    · left; rw [Data.assoc, Data.get, AMap.get, if_neg fun e => h e.symm]; rfl
  | _ => left; rfl

theorem decSpan_nil (sp : Span) : Wire.decSpan (toJson ordm .nil) ≠ some sp := by simp [toJson, Wire.decSpan]

theorem decSpan_ofSpan (s : Span) : Wire.decSpan (toJson ordm (ofSpan s)) = some s := by
  rw [toJson_span]; exact Wire.decSpan_encSpan s

/-- Marking a directive with provenance adds no places. -/
theorem mentions_provenance {d : Data} {v : Data} {sp : Span} (h : MentionsPlace ordm (d.assoc (str% "provenance") v) sp) : MentionsPlace ordm d sp := by
  obtain ⟨e, he, k, hk, h⟩ := h
  have hp : (d.assoc (str% "provenance") v).get (str% "postings") = d.get (str% "postings") := by
    rcases get_assoc_or d (str% "provenance") (str% "postings") v with h | ⟨h, -⟩
    · exact h
    · exact absurd h (by decide)
  rcases he with rfl | he
  · refine ⟨d, .inl rfl, k, hk, ?_⟩
    rcases get_assoc_or d (str% "provenance") k v with h' | ⟨h', -⟩
    · rwa [h'] at h
    · subst h'; exact absurd hk (by decide)
  · rw [hp] at he
    exact ⟨e, .inr he, k, hk, h⟩

theorem provenanceTag_assoc {name : Str} {phase : Option Str} {d r : Data} (h : provenanceTag name phase d = some r) :
    ∃ v, r = d.assoc (str% "provenance") v := by
  unfold provenanceTag at h
  simp only [Option.bind_eq_bind, Option.pure_def] at h
  cases phase with
  | none =>
    simp only [Option.bind_some, Option.bind_eq_some_iff, Option.some.injEq] at h
    obtain ⟨v, -, rfl⟩ := h
    exact ⟨v, rfl⟩
  | some k =>
    dsimp only at h
    split at h <;> simp only [Option.bind_some, Option.bind_eq_some_iff, Option.some.injEq] at h
    · obtain ⟨v, -, rfl⟩ := h
      exact ⟨v, rfl⟩
    · obtain ⟨_, -, v, -, rfl⟩ := h
      exact ⟨v, rfl⟩

theorem through_mentions {p : Plugin} (hp : InventsNoPlaces ordm p) {name : Str} {phase : Option Str} {l a : List Data}
    (h : through p (provenanceTag name phase) l = some a) {r : Data} (hr : r ∈ a) {sp : Span} (hm : MentionsPlace ordm r sp) :
    ∃ d ∈ l, MentionsPlace ordm d sp := by
  obtain ⟨l', hl, x, hx, e⟩ := through_mem h hr
  cases x with
  | old i => exact ⟨r, hl r (List.mem_of_getElem? e), hm⟩
  | throws m => cases e
  | new d =>
    have hd : MentionsPlace ordm d sp := by
      simp only [passOn] at e
      split at e
      · cases e; exact hm
      · obtain ⟨v, rfl⟩ := provenanceTag_assoc e
        exact mentions_provenance hm
    obtain ⟨d', h1, h2⟩ := hp l' d hx sp hd
    exact ⟨d', hl d' h1, h2⟩

theorem throughAll_mentions {phase : Option Str} {ps : List Plugin} (hp : ∀ p ∈ ps, InventsNoPlaces ordm p) {l a : List Data}
    (h : throughAll phase ps l = some a) {r : Data} (hr : r ∈ a) {sp : Span} (hm : MentionsPlace ordm r sp) : ∃ d ∈ l, MentionsPlace ordm d sp := by
  induction ps generalizing l with
  | nil => cases h; exact ⟨r, hr, hm⟩
  | cons p ps ih =>
    simp only [throughAll, Option.bind_eq_some_iff] at h
    obtain ⟨b, h1, h2⟩ := h
    obtain ⟨d, hd, hm⟩ := ih (fun q hq => hp q (by simp [hq])) h2
    exact through_mentions (hp p (by simp)) h1 hd hm

theorem mergeSpans_mentions {d : Data} {spans : List Data} {sp : Span} (h : MentionsPlace ordm (mergeSpans d spans) sp) :
    MentionsPlace ordm d sp ∨ ∃ x ∈ spans, Wire.decSpan (toJson ordm x) = some sp := by
  have plain : ∀ (e v : Data) (k : Str), (k = str% "span" ∨ k = str% "span-p") →
      Wire.decSpan (toJson ordm ((e.assoc (str% "span-p") v).get k)) = some sp →
      Wire.decSpan (toJson ordm (e.get k)) = some sp ∨ Wire.decSpan (toJson ordm v) = some sp := by
    intro e v k hk h
    rcases get_assoc_or e (str% "span-p") k v with h' | ⟨-, h'⟩
    · rw [h'] at h; exact .inl h
    · rw [h'] at h; exact .inr h
  have head : ∀ v, v = (spans.head?).getD .nil → Wire.decSpan (toJson ordm v) = some sp → ∃ x ∈ spans, Wire.decSpan (toJson ordm x) = some sp := by
    rintro v rfl h
    cases spans with
    | nil => exact absurd h (decSpan_nil sp)
    | cons x l => exact ⟨x, by simp, h⟩
  obtain ⟨e, he, k, hk, h⟩ := h
  unfold mergeSpans at he
  dsimp only at he
  split at he
  · rcases he with rfl | he
    · rcases plain _ _ k hk h with h | h
      · exact .inl ⟨d, .inl rfl, k, hk, h⟩
      · exact .inr (head _ rfl h)
    · left
      refine ⟨e, .inr ?_, k, hk, h⟩
      rcases get_assoc_or d (str% "span-p") (str% "postings") ((spans.head?).getD .nil) with h' | ⟨h', -⟩
      · rwa [h'] at he
      · exact absurd h' (by decide)
  · rcases he with rfl | he
    · have hk' : k ≠ str% "postings" := by rcases hk with rfl | rfl <;> decide
      rcases get_assoc_or (d.assoc (str% "span-p") ((spans.head?).getD .nil)) (str% "postings") k
          (.vec (List.zipWith (fun p s => p.assoc (str% "span-p") s) (d.get (str% "postings")).elems spans.tail)) with h' | ⟨h', -⟩
      · rw [h'] at h
        rcases plain _ _ k hk h with h | h
        · exact .inl ⟨d, .inl rfl, k, hk, h⟩
        · exact .inr (head _ rfl h)
      · exact absurd h' hk'
    · rcases get_assoc_or (d.assoc (str% "span-p") ((spans.head?).getD .nil)) (str% "postings") (str% "postings")
          (.vec (List.zipWith (fun p s => p.assoc (str% "span-p") s) (d.get (str% "postings")).elems spans.tail)) with h' | ⟨-, h'⟩
      · rw [h'] at he
        left
        refine ⟨e, .inr ?_, k, hk, h⟩
        rcases get_assoc_or d (str% "span-p") (str% "postings") ((spans.head?).getD .nil) with h' | ⟨h', -⟩
        · rwa [h'] at he
        · exact absurd h' (by decide)
      · rw [h'] at he
        obtain ⟨i, hi, rfl⟩ := List.mem_iff_getElem.1 he
        simp only [Data.elems, List.getElem_zipWith] at h
        rcases plain _ _ k hk h with h | h
        · exact .inl ⟨_, .inr (List.getElem_mem _), k, hk, h⟩
        · exact .inr ⟨_, List.mem_of_mem_tail (List.getElem_mem _), h⟩

theorem mapN_mentions {ds spans : List Data} {r : Data} (hr : r ∈ mapN ds spans) {sp : Span} (h : MentionsPlace ordm r sp) :
    (∃ d ∈ ds, MentionsPlace ordm d sp) ∨ ∃ x ∈ spans, Wire.decSpan (toJson ordm x) = some sp := by
  induction ds generalizing spans with
  | nil => cases hr
  | cons d ds ih =>
    unfold mapN at hr
    split at hr
    · rcases List.mem_cons.1 hr with rfl | hr
      · exact .inl ⟨r, by simp, h⟩
      · rcases ih hr with ⟨d', h1, h2⟩ | h
        · exact .inl ⟨d', by simp [h1], h2⟩
        · exact .inr h
    · rcases List.mem_cons.1 hr with rfl | hr
      · rcases mergeSpans_mentions h with h | ⟨x, hx, h⟩
        · exact .inl ⟨d, by simp, h⟩
        · exact .inr ⟨x, List.mem_of_mem_take hx, h⟩
      · rcases ih hr with ⟨d', h1, h2⟩ | ⟨x, hx, h⟩
        · exact .inl ⟨d', by simp [h1], h2⟩
        · exact .inr ⟨x, List.mem_of_mem_drop hx, h⟩

/-- The data of a directive mention the places of the directive. -/
theorem mentions_directive {ord : List Data → List Data} {d : Raw.Directive} {sp : Span}
    (h : MentionsPlace ordm (ofDirective ord (withoutLostMeta d)) sp) : sp ∈ directiveSpans d := by
  obtain ⟨e, he, k, hk, h⟩ := h
  have hpost : (ofDirective ord (withoutLostMeta d)).get (str% "postings") = (match (withoutLostMeta d).variant with
      | .transaction t => .vec (t.postings.map (ofPosting ord)) | _ => .nil) := by
    unfold ofDirective Data.get
    dsimp only
    rw [get_append, variant_postings]
    have : AMap.get (optEntry (str% "span") (withoutLostMeta d).span ofSpan ++ [(str% "date", Data.date (withoutLostMeta d).date)] ++
        optEntry (str% "tags") (withoutLostMeta d).tags (ofSet ord) ++ optEntry (str% "links") (withoutLostMeta d).links (ofSet ord) ++
        optEntry (str% "metadata") (withoutLostMeta d).metadata ofMetadata) (str% "postings") = none := by
      simp [get_append, get_optEntry, AMap.get]
    rw [this]
    cases (withoutLostMeta d).variant <;> rfl
  rw [hpost] at he
  unfold directiveSpans
  rcases he with rfl | he
  · refine List.mem_append_left _ ?_
    rcases hk with rfl | rfl
    · have : (ofDirective ord (withoutLostMeta d)).get (str% "span") = spanDatum d.span := by
        unfold ofDirective Data.get
        cases hs : d.span <;> simp [withoutLostMeta, hs, get_append, get_optEntry, AMap.get, variant_span, spanDatum]
      rw [this] at h
      cases hs : d.span with
      | none => rw [hs] at h; exact absurd h (decSpan_nil sp)
      | some s => rw [hs, spanDatum, decSpan_ofSpan] at h; cases h; simp
    · rw [spanP_ofDirective] at h
      exact absurd h (decSpan_nil sp)
  · cases hv : d.variant with
    | transaction t =>
      have : (withoutLostMeta d).variant = .transaction { t with postings := t.postings.map fun p => { p with metadata := withoutLost p.metadata } } := by
        simp [withoutLostMeta, hv]
      rw [this] at he
      simp only [Data.elems, List.map_map, List.mem_map, Function.comp_apply] at he
      obtain ⟨q, hq, rfl⟩ := he
      refine List.mem_append_right _ (List.mem_filterMap.2 ⟨q, hq, ?_⟩)
      rcases hk with rfl | rfl
      · have : (ofPosting ord { q with metadata := withoutLost q.metadata }).get (str% "span") = spanDatum q.span := by
          unfold ofPosting Data.get
          cases hs : q.span <;> simp [get_append, get_optEntry, AMap.get, spanDatum]
        rw [this] at h
        cases hs : q.span with
        | none => rw [hs] at h; exact absurd h (decSpan_nil sp)
        | some s => rw [hs, spanDatum, decSpan_ofSpan] at h; exact h
      · have : (ofPosting ord { q with metadata := withoutLost q.metadata }).get (str% "span-p") = .nil := by
          unfold ofPosting Data.get
          simp [get_append, get_optEntry, AMap.get]
        rw [this] at h
        exact absurd h (decSpan_nil sp)
    | _ =>
      have : (withoutLostMeta d).variant = d.variant := by simp [withoutLostMeta, hv]
      rw [this, hv] at he
      cases he


theorem at_mem {l : List Data} {i x : Data} (h : Spec.at? l i = some x) : x ∈ l := by
  unfold Spec.at? at h
  split at h
  · split at h
    · exact List.mem_of_getElem? h
    · cases h
  · cases h

theorem pick_mem (v i : Data) : pick v i = .nil ∨ pick v i ∈ v.elems := by
  cases v with
  | vec l =>
    simp only [pick, Data.elems]
    cases h : Spec.at? l i with
    | none => exact .inl rfl
    | some x => exact .inr (at_mem h)
  | _ => exact .inl rfl

theorem booked_place (ord : List Data → List Data) (b : Booked.Directive) {k : Str} (hk : k = str% "span" ∨ k = str% "span-p") :
    (ofBooked ord b).get k = .nil := by
  have h : ∀ v : Booked.Variant, AMap.get (ofBookedVariant ord v) k = none := by
    intro v
    rcases hk with rfl | rfl <;> cases v <;> simp [ofBookedVariant, ofVariant, get_append, get_optEntry, AMap.get]
  unfold ofBooked Data.get
  rcases hk with rfl | rfl <;> simp [get_append, get_optEntry, AMap.get, h]

theorem bookedPosting_place (ord : List Data → List Data) (b : Booked.Posting) {k : Str} (hk : k = str% "span" ∨ k = str% "span-p") :
    (ofBookedPosting ord b).get k = .nil := by
  unfold ofBookedPosting Data.get
  rcases hk with rfl | rfl <;> simp [get_append, get_optEntry, AMap.get]

theorem postings_datum (ord : List Data → List Data) (b : Booked.Directive) :
    (ofBooked ord b).get (str% "postings") = (match b.variant with
      | .transaction t => .vec (t.postings.map (ofBookedPosting ord)) | _ => .nil) := by
  unfold ofBooked Data.get
  dsimp only
  rw [get_append, bookedVariant_postings]
  have : AMap.get ([(str% "idx", ofNat b.idx), (str% "date", Data.date b.date)] ++
      optEntry (str% "tags") b.tags (ofSet ord) ++ optEntry (str% "links") b.links (ofSet ord) ++
      optEntry (str% "metadata") b.metadata ofMetadata) (str% "postings") = none := by
    simp [get_append, get_optEntry, AMap.get]
  rw [this]
  cases b.variant <;> rfl

/-- Booked directives mention the places of those which were booked. -/
theorem resolved_mentions {xs : List Data} {ord : List Data → List Data} {b : Booked.Directive} {r : Data}
    (h : Spec.Resolved (.vec xs) (ofBooked ord b) r) {sp : Span} (hm : MentionsPlace ordm r sp) : ∃ d ∈ xs, MentionsPlace ordm d sp := by
  obtain ⟨e, he, k, hk, hm⟩ := hm
  have ho : isOrigin k = true := by rcases hk with rfl | rfl <;> decide
  have hd : pick (.vec xs) ((ofBooked ord b).get (str% "idx")) = .nil ∨ pick (.vec xs) ((ofBooked ord b).get (str% "idx")) ∈ xs := pick_mem _ _
  rcases he with rfl | he
  · cases hh : (pick (.vec xs) ((ofBooked ord b).get (str% "idx"))).has k with
    | true =>
      rw [h.origin k ho hh] at hm
      rcases hd with hd | hd
      · rw [hd] at hh; cases hh
      · exact ⟨_, hd, _, .inl rfl, k, hk, hm⟩
    | false =>
      rw [h.kept k (by rcases hk with rfl | rfl <;> decide) (.inr hh), booked_place ord b hk] at hm
      exact absurd hm (decSpan_nil sp)
  · cases hv : b.variant with
    | transaction t =>
      have hb := postings_datum ord b
      rw [hv] at hb
      obtain ⟨qs, h1, h2⟩ := h.postings _ hb
      rw [h1] at he
      obtain ⟨p, hp, hl⟩ : ∃ p ∈ t.postings.map (ofBookedPosting ord),
          Spec.Located p (pick ((pick (.vec xs) ((ofBooked ord b).get (str% "idx"))).get (str% "postings")) (p.get (str% "idx"))) e := by
        clear hb h1 h
        generalize t.postings.map (ofBookedPosting ord) = ps at h2
        induction h2 with
        | nil => cases he
        | cons h _ ih =>
          rcases List.mem_cons.1 he with rfl | he
          · exact ⟨_, by simp, h⟩
          · obtain ⟨p, hp, h⟩ := ih he
            exact ⟨p, by simp [hp], h⟩
      obtain ⟨p, -, rfl⟩ := List.mem_map.1 hp
      rcases pick_mem ((pick (.vec xs) ((ofBooked ord b).get (str% "idx"))).get (str% "postings")) ((ofBookedPosting ord p).get (str% "idx")) with h3 | h3
      · rw [hl.kept k (.inr (by rw [h3]; rfl)), bookedPosting_place ord p hk] at hm
        exact absurd hm (decSpan_nil sp)
      · cases hh : (pick ((pick (.vec xs) ((ofBooked ord b).get (str% "idx"))).get (str% "postings")) ((ofBookedPosting ord p).get (str% "idx"))).has k with
        | true =>
          rw [hl.origin k ho hh] at hm
          rcases hd with hd | hd
          · rw [hd] at h3; cases h3
          · exact ⟨_, hd, _, .inr h3, k, hk, hm⟩
        | false =>
          rw [hl.kept k (.inr hh), bookedPosting_place ord p hk] at hm
          exact absurd hm (decSpan_nil sp)
    | _ =>
      have hb := postings_datum ord b
      rw [hv] at hb
      rw [h.noPostings hb] at he
      cases he

/-- What a report read by the server says about places is in its entries. -/
theorem decReport_places {l : List (Str × Json)} {r : Report} (h : Wire.decReport (.obj l) = some r) :
    (∃ v, (str% "span", v) ∈ l ∧ Wire.decSpan v = some r.span) ∧
    (∀ c, r.contexts = some c → ∃ v, (str% "contexts", v) ∈ l ∧ Json.toList Wire.decLabelled v = some c) ∧
    ∀ c, r.related = some c → ∃ v, (str% "related", v) ∈ l ∧ Json.toList Wire.decLabelled v = some c := by
  have fld : ∀ {k : Str} {j : Json}, Json.field l k = some (some j) → (k, j) ∈ l := by
    intro k j h
    unfold Json.field at h
    split at h
    · cases h
    · rename_i x hx
      cases h
      have : j ∈ Json.vals k l := by rw [hx]; simp
      obtain ⟨⟨k', j'⟩, h1, h2⟩ := List.mem_filterMap.1 this
      dsimp only at h2
      split at h2
      · rename_i e; cases h2; cases e; exact h1
      · cases h2
    · cases h
  have hreq : ∀ {α : Type} {k : Str} {dec : Json → Option α} {a : α}, Json.req l k dec = some a → ∃ v, (k, v) ∈ l ∧ dec v = some a := by
    intro α k dec a h
    unfold Json.req at h
    split at h
    · rename_i j hj; exact ⟨j, fld hj, h⟩
    · cases h
  have hopt : ∀ {α : Type} {k : Str} {dec : Json → Option α} {a : α}, Json.opt l k dec = some (some a) → ∃ v, (k, v) ∈ l ∧ dec v = some a := by
    intro α k dec a h
    unfold Json.opt at h
    split at h
    · cases h
    · rename_i j _ hj
      obtain ⟨b, hb, e⟩ := Option.map_eq_some_iff.1 h
      cases e
      exact ⟨j, fld hj, hb⟩
    · cases h
    · cases h
  unfold Wire.decReport at h
  simp only [Option.bind_eq_bind, Option.bind_eq_some_iff, Option.pure_def, Option.some.injEq] at h
  obtain ⟨a1, -, a2, -, a3, h3, a4, h4, a5, h5, a6, -, rfl⟩ := h
  exact ⟨hreq h3, fun c e => hopt (by rw [h4]; exact congrArg some e), fun c e => hopt (by rw [h5]; exact congrArg some e)⟩

theorem mem_assoc {l : List (Str × Data)} {k : Str} {v : Data} {q : Str × Data} (h : q ∈ AMap.set l k v) : q = (k, v) ∨ q ∈ l := by
  induction l with
  | nil => simpa [AMap.set] using h
  | cons p l ih =>
    obtain ⟨k', v'⟩ := p
    simp only [AMap.set] at h
    split at h
    · rcases List.mem_cons.1 h with h | h
      · exact .inl h
      · exact .inr (by simp [h])
    · rcases List.mem_cons.1 h with h | h
      · exact .inr (by simp [h])
      · rcases ih h with h | h
        · exact .inl h
        · exact .inr (by simp [h])

/-- A datum is a map in which an entry satisfies `P`. -/
def EntriesIn (P : Str → Data → Prop) (m : Data) : Prop := ∃ l, m = .map l ∧ ∀ q ∈ l, P q.1 q.2

theorem EntriesIn.assoc {P : Str → Data → Prop} {m : Data} (h : EntriesIn P m) {k : Str} {v : Data} (hv : P k v) : EntriesIn P (m.assoc k v) := by
  obtain ⟨l, rfl, h⟩ := h
  refine ⟨_, rfl, fun q hq => ?_⟩
  rcases mem_assoc hq with rfl | hq
  · exact hv
  · exact h q hq

/-- Reports with these entries refer to these places. -/
theorem report_places (ho : IsMapOrder ordm) {P : Span → Prop} {m : Data}
    (h : EntriesIn (fun k v => k ≠ str% "contexts" ∧ (k = str% "span" → ∀ sp, Wire.decSpan (toJson ordm v) = some sp → P sp) ∧
      (k = str% "related" → ∀ x ∈ v.elems, ∃ a b, x = .vec [a, b] ∧ ∀ sp, Wire.decSpan (toJson ordm b) = some sp → P sp)) m)
    {r : Report} (hr : Wire.decReport (toJson ordm m) = some r) : ∀ sp ∈ reportSpans r, P sp := by
  obtain ⟨l, rfl, h⟩ := h
  have mem : ∀ {k : Str} {j : Json}, (k, j) ∈ ordm (entriesToJson ordm l) → ∃ v, (k, v) ∈ l ∧ j = toJson ordm v := by
    intro k j hj
    rw [(ho _).mem_iff, entriesToJson_eq] at hj
    obtain ⟨⟨k', v⟩, h1, h2⟩ := List.mem_map.1 hj
    cases h2
    exact ⟨v, h1, rfl⟩
  rw [toJson] at hr
  obtain ⟨⟨v, hv, e⟩, hc, hrel⟩ := decReport_places hr
  obtain ⟨v, hv', rfl⟩ := mem hv
  intro sp hsp
  unfold reportSpans at hsp
  rcases List.mem_cons.1 hsp with rfl | hsp
  · exact (h (_, v) hv').2.1 rfl _ e
  · rcases List.mem_append.1 hsp with hsp | hsp
    · cases hcc : r.contexts with
      | none => rw [hcc] at hsp; cases hsp
      | some c =>
        obtain ⟨v, hv, -⟩ := hc c hcc
        obtain ⟨v, hv, -⟩ := mem hv
        exact absurd rfl (h (_, v) hv).1
    · cases hcc : r.related with
      | none => rw [hcc] at hsp; cases hsp
      | some c =>
        rw [hcc] at hsp
        obtain ⟨v, hv, e⟩ := hrel c hcc
        obtain ⟨v, hv', rfl⟩ := mem hv
        obtain ⟨x, hx, rfl⟩ := List.mem_map.1 hsp
        have key : ∀ ys : List Data, Json.all Wire.decLabelled (toJsons ordm ys) = some c → ∃ y ∈ ys, Wire.decLabelled (toJson ordm y) = some x := by
          intro ys hy
          rw [toJsons_eq] at hy
          obtain ⟨a, ha, hb⟩ := all_mem hy hx
          obtain ⟨y, hy, rfl⟩ := List.mem_map.1 ha
          exact ⟨y, hy, hb⟩
        obtain ⟨y, hy, hdl⟩ : ∃ y ∈ v.elems, Wire.decLabelled (toJson ordm y) = some x := by
          cases v with
          | vec ys => exact key ys (by simpa [toJson, Json.toList] using e)
          | set ys => exact key ys (by simpa [toJson, Json.toList] using e)
          | _ => simp [toJson, Json.toList] at e
        obtain ⟨a, b, rfl, hb⟩ := (h (_, v) hv').2.2 rfl y hy
        simp only [toJson, toJsons, Wire.decLabelled] at hdl
        split at hdl
        · rename_i h1 h2
          cases hdl
          exact hb _ h2
        · cases hdl

theorem or_cases (a b : Data) : a.or b = a ∨ a.or b = b := by
  unfold Data.or
  split
  · exact .inl rfl
  · exact .inr rfl

theorem spanOf_cases {x : Data} {sp : Span} (h : Wire.decSpan (toJson ordm (spanOf x)) = some sp) :
    ∃ k, (k = str% "span" ∨ k = str% "span-p") ∧ Wire.decSpan (toJson ordm (x.get k)) = some sp := by
  rcases or_cases (x.get (str% "span")) (x.get (str% "span-p")) with e | e <;> rw [spanOf, e] at h
  · exact ⟨_, .inl rfl, h⟩
  · exact ⟨_, .inr rfl, h⟩

theorem spanOf_nil {sp : Span} : Wire.decSpan (toJson ordm (spanOf .nil)) ≠ some sp := decSpan_nil sp

theorem nth_mem (v i : Data) : v.nth i = .nil ∨ v.nth i ∈ v.elems := by
  rw [nth_pick]
  exact pick_mem v i

/-- The place of a report is one which a directive mentions. -/
theorem resolveReportIdx_mentions {txt : Data → Str} {idx : Data} {xs : List Data} {l : Located} (h : resolveReportIdx txt idx (.vec xs) = some l)
    {sp : Span} (hs : Wire.decSpan (toJson ordm l.span) = some sp) : ∃ d ∈ xs, MentionsPlace ordm d sp := by
  unfold resolveReportIdx at h
  dsimp only at h
  obtain ⟨a, -, rfl⟩ := Option.map_eq_some_iff.1 h
  dsimp only at hs
  have hd := nth_mem (.vec xs) (idx.nth (.num ⟨0, 0⟩))
  generalize (Data.vec xs).nth (idx.nth (.num ⟨0, 0⟩)) = d at hs hd
  have hp := nth_mem (d.get (str% "postings")) (idx.nth (.num ⟨1, 0⟩))
  generalize (d.get (str% "postings")).nth (idx.nth (.num ⟨1, 0⟩)) = p at hs hp
  split at hs
  · rcases or_cases (spanOf p) (spanOf d) with e | e <;> rw [e] at hs
    · obtain ⟨k, hk, hs⟩ := spanOf_cases hs
      rcases hp with rfl | hp
      · exact absurd hs (decSpan_nil sp)
      rcases hd with rfl | hd
      · cases hp
      · exact ⟨d, hd, p, .inr hp, k, hk, hs⟩
    · obtain ⟨k, hk, hs⟩ := spanOf_cases hs
      rcases hd with rfl | hd
      · exact absurd hs (decSpan_nil sp)
      · exact ⟨d, hd, d, .inl rfl, k, hk, hs⟩
  · exact absurd hs (decSpan_nil sp)

/-- The places of a report of booking which the front end has made are such as directives mention. -/
theorem resolved_places (ho : IsMapOrder ordm) {txt : Data → Str} {report rep : Data} {xs : List Data} (h : resolveReportFromRaw txt report (.vec xs) = some rep)
    {r : Report} (hr : Wire.decReport (toJson ordm rep) = some r) : ∀ sp ∈ reportSpans r, ∃ d ∈ xs, MentionsPlace ordm d sp := by
  refine report_places ho (P := fun sp => ∃ d ∈ xs, MentionsPlace ordm d sp) ?_ hr
  unfold resolveReportFromRaw at h
  simp only [Option.bind_eq_bind, Option.bind_eq_some_iff, Option.pure_def, Option.some.injEq] at h
  obtain ⟨l, hl, related, hrel, rfl⟩ := h
  generalize hP : (fun (k : Str) (v : Data) => k ≠ str% "contexts" ∧ (k = str% "span" → ∀ sp, Wire.decSpan (toJson ordm v) = some sp → ∃ d ∈ xs, MentionsPlace ordm d sp) ∧
      (k = str% "related" → ∀ x ∈ v.elems, ∃ a b, x = .vec [a, b] ∧ ∀ sp, Wire.decSpan (toJson ordm b) = some sp → ∃ d ∈ xs, MentionsPlace ordm d sp)) = P
  have other : ∀ k v, k ≠ str% "contexts" → k ≠ str% "span" → k ≠ str% "related" → P k v := by
    intro k v h1 h2 h3
    subst hP
    exact ⟨h1, fun h => absurd h h2, fun h => absurd h h3⟩
  have copy : ∀ {m : Data} {k : Str}, EntriesIn P m → k ≠ str% "contexts" → k ≠ str% "span" → k ≠ str% "related" → EntriesIn P (copyField report m k) := by
    intro m k h h1 h2 h3
    unfold copyField
    split
    · exact h.assoc (other _ _ h1 h2 h3)
    · exact h
  have cond : ∀ {m : Data} {k : Str} {v : Data} (c : Bool), EntriesIn P m → P k v → EntriesIn P (assocIf c m k v) := by
    intro m k v c h hv
    unfold assocIf
    split
    · exact h.assoc hv
    · exact h
  refine cond _ (cond _ (((copy (copy ⟨[], rfl, by simp⟩ ?_ ?_ ?_) ?_ ?_ ?_).assoc (other _ _ ?_ ?_ ?_)).assoc ?_) (other _ _ ?_ ?_ ?_)) ?_
  all_goals try decide
  · subst hP
    exact ⟨by decide, fun _ sp h => resolveReportIdx_mentions hl h, fun h => absurd h (by decide)⟩
  · subst hP
    refine ⟨by decide, fun h => absurd h (by decide), fun _ x hx => ?_⟩
    obtain ⟨i, -, hi⟩ := all_mem hrel hx
    obtain ⟨l', hl', rfl⟩ := Option.map_eq_some_iff.1 hi
    exact ⟨_, _, rfl, fun sp h => resolveReportIdx_mentions hl' h⟩

/-- The places of the report of an error of a directive are such as the directive mentions. -/
theorem dctReport_places (ho : IsMapOrder ordm) {d err : Data} {r : Report} (hr : Wire.decReport (toJson ordm (dctReport d err)) = some r) :
    ∀ sp ∈ reportSpans r, MentionsPlace ordm d sp := by
  refine report_places ho (P := fun sp => MentionsPlace ordm d sp) ?_ hr
  unfold dctReport
  dsimp only
  rw [if_neg (by simp [Data.get, Data.truthy])]
  refine ⟨_, rfl, ?_⟩
  intro q hq
  simp only [List.mem_cons, List.not_mem_nil, or_false] at hq
  rcases hq with rfl | rfl | rfl <;> dsimp only
  · exact ⟨by decide, fun h => absurd h (by decide), fun h => absurd h (by decide)⟩
  · exact ⟨by decide, fun h => absurd h (by decide), fun h => absurd h (by decide)⟩
  · refine ⟨by decide, fun _ sp h => ?_, fun h => absurd h (by decide)⟩
    rcases or_cases (d.get (str% "span-p")) (d.get (str% "span")) with e | e <;> rw [e] at h
    · exact ⟨d, .inl rfl, _, .inr rfl, h⟩
    · exact ⟨d, .inl rfl, _, .inl rfl, h⟩

/-- The process runs a server, and nothing waits to be read. -/
def podOf (n k : Nat) (src : E.Sources) (parsed : Except (List ParserError) Parsed) : Pod E :=
  { nextId := n, server := some (.ready src parsed), served := k }

/-- After a call the server is there, unless working on it ended it. -/
theorem invoke_alive (F : Front E L) (ho : IsMapOrder F.ordm) {n k : Nat} (hn : n < 2147483647) (src : E.Sources)
    (parsed : Except (List ParserError) Parsed) (m : Str) (p : Data) :
    (∃ src', (Pod.invoke F (podOf n k src parsed) m p).1 = podOf (n + 1) (k + 1) src' parsed ∧
      ((∀ x, Wire.decMethod (requestEntries F.ordm m p (n + 1)) = some x → ∀ l, x ≠ .createSpans l) → src' = src)) ∨
    ∃ x, Wire.decMethod (requestEntries F.ordm m p (n + 1)) = some x ∧
      Server.healthy E L (F.orders k) (some (.int ((n + 1 : Nat) : Int))) src parsed x = none ∧
      Pod.invoke F (podOf n k src parsed) m p = ({ nextId := n + 1, server := none, served := k }, some { ok := .nil, err := .nil }) := by
  by_cases hp : 127 ≤ levels p
  · left
    refine ⟨src, ?_, fun _ => rfl⟩
    unfold podOf
    rw [invoke_bad F ho hn (.inr hp)]
  rw [Nat.not_le] at hp
  cases hx : Wire.decMethod (requestEntries F.ordm m p (n + 1)) with
  | none =>
    left
    refine ⟨src, ?_, fun _ => rfl⟩
    unfold podOf
    rw [invoke_bad F ho hn (.inl hx)]
  | some x =>
    cases hh : Server.healthy E L (F.orders k) (some (.int ((n + 1 : Nat) : Int))) src parsed x with
    | none => exact .inr ⟨x, rfl, hh, invoke_dies F ho hn hx hh hp⟩
    | some y =>
      obtain ⟨src', r⟩ := y
      left
      refine ⟨src', ?_, fun h => ?_⟩
      · unfold podOf
        rw [invoke_ready F ho hn hx hh hp]
      · have hc := h x rfl
        cases x with
        | createSpans l => exact absurd rfl (hc l)
        | _ =>
          simp only [Server.healthy, Option.map_eq_some_iff, Option.some.injEq, Prod.mk.injEq] at hh
          first
            | exact hh.1.symm
            | (obtain ⟨_, -, h, -⟩ := hh; exact h.symm)

/-- What ends the server: booking which panics, or a report which cannot be written. -/
theorem healthy_none {order : AMap Str (Account L) → AMap Str (Account L)} (hf : ∀ m, (order m).Perm m) {id : Option Id} {src : E.Sources}
    {parsed : Except (List ParserError) Parsed} {x : Method} (hs : ∀ p, parsed = .ok p → AllSpans p.directives)
    (h : Server.healthy E L order id src parsed x = none) :
    (∃ ds p, x = .book ds ∧ parsed = .ok p ∧ book L order (Server.bookOptions p.options) (ds.getD p.directives) = .panic) ∨
    (∃ ss, x = .resolveSpans ss) ∨ (∃ rs, x = .formatErrors rs ∧ ∃ r ∈ rs, E.writeReport src true r = none) ∨ (∃ rs, x = .formatWarnings rs) := by
  have ha : Server.answer E L order (.ready src parsed) { jsonrpc := str% "2.0", id := id, method := x } = none := by
    simp only [Server.answer]
    rw [if_neg (by decide), h]
    rfl
  obtain ⟨-, src', parsed', e, hp⟩ := C22_panics_only order hf _ _ (fun src p e => by cases e; exact hs p rfl) ha
  cases e
  rcases hp with ⟨ds, p, h1, h2, h3⟩ | ⟨ss, h1, -⟩ | ⟨rs, h1, h2⟩ | ⟨rs, h1, -⟩
  · exact .inl ⟨ds, p, h1, h2, h3⟩
  · exact .inr (.inl ⟨ss, h1⟩)
  · exact .inr (.inr (.inl ⟨rs, h1, h2⟩))
  · exact .inr (.inr (.inr ⟨rs, h1⟩))

/-- Printing reports about known places leaves the server there. -/
theorem printError_alive (F : Front E L) (ho : IsMapOrder F.ordm) (hf : ∀ n m, (F.orders n m).Perm m) {known : E.Sources → Span → Prop}
    (hE : KnowsSpans E known) {n k : Nat} (hn : n < 2147483647) {src : E.Sources} {parsed : Except (List ParserError) Parsed}
    (hs : ∀ p, parsed = .ok p → AllSpans p.directives) (msg exc : List Str) (rs : Option (List Data))
    (hr : ∀ l, rs = some l → ∀ x ∈ l, ∀ r, Wire.decReport (toJson F.ordm x) = some r → ∀ sp ∈ reportSpans r, known src sp) :
    (printError F (podOf n k src parsed) msg rs exc).1.alive = true := by
  cases rs with
  | none => rfl
  | some l =>
    have key : (Pod.formatErrors F (podOf n k src parsed) l).1.alive = true := by
      unfold Pod.formatErrors
      dsimp only
      rcases invoke_alive F ho hn src parsed (str% "parser.format-errors") (.vec l) with ⟨src', h, -⟩ | ⟨x, hx, hh, -⟩
      · rw [h]; rfl
      · exfalso
        rw [decMethod_formatErrors] at hx
        obtain ⟨ds, hd, rfl⟩ := Option.map_eq_some_iff.1 hx
        rcases healthy_none (hf k) hs hh with ⟨_, _, h, -⟩ | ⟨_, h⟩ | ⟨_, h, r, hr', hw⟩ | ⟨_, h⟩
        · cases h
        · cases h
        · cases h
          obtain ⟨j, hj, e⟩ := all_mem hd hr'
          obtain ⟨x, hx, rfl⟩ := List.mem_map.1 hj
          obtain ⟨t, ht⟩ := hE.writes src true r fun sp hsp => hr l rfl x hx r e sp hsp
          rw [ht] at hw
          cases hw
        · cases h
    unfold printError
    dsimp only
    split <;> rename_i h <;> rw [h] at key <;> exact key

/-- The places of which the user is told when the error is printed. -/
def ErrorPlaces (ordm : List (Str × Json) → List (Str × Json)) (P : Span → Prop) : Option LoadError → Prop
  | some (.dctErrors _ l) => ∀ d ∈ l, ∀ sp, MentionsPlace ordm d sp → P sp
  | some (.booking (some l)) => ∀ x ∈ l, ∀ r, Wire.decReport (toJson ordm x) = some r → ∀ sp ∈ reportSpans r, P sp
  | some (.parser x) => ∀ y ∈ reportsOf x, ∀ r, Wire.decReport (toJson ordm y) = some r → ∀ sp ∈ reportSpans r, P sp
  | _ => True

theorem printErrors_alive (F : Front E L) (ho : IsMapOrder F.ordm) (hf : ∀ n m, (F.orders n m).Perm m) {known : E.Sources → Span → Prop}
    (hE : KnowsSpans E known) {n k : Nat} (hn : n < 2147483647) {src : E.Sources} {parsed : Except (List ParserError) Parsed}
    (hs : ∀ p, parsed = .ok p → AllSpans p.directives) {e : Option LoadError} (he : ErrorPlaces F.ordm (known src) e) :
    (printErrors F (podOf n k src parsed) e).1.alive = true := by
  have none_ok : ∀ msg exc, (printError F (podOf n k src parsed) msg (some []) exc).1.alive = true := fun msg exc =>
    printError_alive F ho hf hE hn hs msg exc _ (by rintro l e x hx; cases e; cases hx)
  cases e with
  | none => rfl
  | some e =>
    cases e with
    | plugins l => rfl
    | parser r => exact printError_alive F ho hf hE hn hs _ _ _ (by rintro l e; cases e; exact he)
    | dctErrors raw l =>
      refine printError_alive F ho hf hE hn hs _ _ _ ?_
      intro rs hrs x hx r hr sp hsp
      unfold dctReports at hrs
      obtain ⟨ll, h1, rfl⟩ := Option.map_eq_some_iff.1 hrs
      obtain ⟨a, ha, hxa⟩ := List.mem_flatten.1 hx
      obtain ⟨d, hd, e⟩ := all_mem h1 ha
      obtain ⟨es, -, rfl⟩ := Option.map_eq_some_iff.1 e
      obtain ⟨err, -, rfl⟩ := List.mem_map.1 hxa
      exact he d hd sp (dctReport_places ho hr sp hsp)
    | pluginException raw => exact none_ok _ _
    | booking rs =>
      cases rs with
      | none => rfl
      | some l => exact printError_alive F ho hf hE hn hs _ _ _ (by rintro l' e; cases e; exact he)
    | bookingException => exact none_ok _ _

/-- Booking leaves the server there, unless a pad has a source which was not opened. -/
theorem book_alive (F : Front E L) (ho : IsMapOrder F.ordm) (hf : ∀ n m, (F.orders n m).Perm m) {n k : Nat} (hn : n < 2147483647)
    {src : E.Sources} {p : Parsed} (hs : AllSpans p.directives) (xs : Option (List Data)) :
    (Pod.book F (podOf n k src (.ok p)) xs).1 = podOf (n + 1) (k + 1) src (.ok p) ∨
    (∃ ds, (match xs with
        | none => ds = p.directives
        | some xs => Json.all Wire.decDirective (xs.map (toJson F.ordm)) = some ds) ∧ ¬ PadsOpened ds) ∧
      (Pod.book F (podOf n k src (.ok p)) xs).2 = some {} := by
  have hm : ∀ x, Wire.decMethod (requestEntries F.ordm (str% "book") (bookParams xs) (n + 1)) = some x →
      ∃ ds, x = .book ds ∧ (match xs with
        | none => ds.getD p.directives = p.directives
        | some xs => Json.all Wire.decDirective (xs.map (toJson F.ordm)) = some (ds.getD p.directives)) := by
    intro x hx
    cases xs with
    | none =>
      have : Wire.decMethod (requestEntries F.ordm (str% "book") (bookParams none) (n + 1)) = some (.book none) :=
        decMethod_plain (x := .book none) (by simp)
      rw [this] at hx
      cases hx
      exact ⟨_, rfl, rfl⟩
    | some xs =>
      rw [bookParams, Option.map_some, Option.getD_some, decMethod_book] at hx
      obtain ⟨ds, h1, rfl⟩ := Option.map_eq_some_iff.1 hx
      exact ⟨_, rfl, h1⟩
  have e : Pod.book F (podOf n k src (.ok p)) xs = ((Pod.invoke F (podOf n k src (.ok p)) (str% "book") (bookParams xs)).1,
      (Pod.invoke F (podOf n k src (.ok p)) (str% "book") (bookParams xs)).2.map mapError) := by
    cases xs <;> rfl
  rcases invoke_alive F ho hn src (.ok p) (str% "book") (bookParams xs) with ⟨src', h, hsame⟩ | ⟨x, hx, hh, hi⟩
  · left
    rw [e, h, hsame]
    intro x hx l hl
    obtain ⟨ds, rfl, -⟩ := hm x hx
    cases hl
  · right
    obtain ⟨ds, rfl, hds⟩ := hm x hx
    constructor
    · refine ⟨ds.getD p.directives, ?_, ?_⟩
      · cases xs with
        | none => exact hds
        | some xs => exact hds
      · rcases healthy_none (hf k) (fun q e => by cases e; exact hs) hh with ⟨ds', p', h1, h2, h3⟩ | ⟨_, h⟩ | ⟨_, h, -⟩ | ⟨_, h⟩
        · cases h1
          cases h2
          exact fun hpo => C13_no_panic_partial L (F.orders k) _ _ hpo h3
        · cases h
        · cases h
        · cases h
    · rw [e, hi]
      rfl

/-- While loading: the server is there, and knows every place which the directives mention. -/
structure Held (F : Front E L) (known : E.Sources → Span → Prop) (p : Parsed) (n : Nat) (m : LoadedBeans E) : Prop where
  pod : ∃ n' k src, n' ≤ n ∧ m.pod = podOf n' k src (.ok p) ∧ ErrorPlaces F.ordm (known src) m.error ∧
    ∀ l, m.rawDirectives = some l ∨ m.rawXfDirectives = some l ∨ m.bookedDirectives = some l →
      ∀ d ∈ l, ∀ sp, MentionsPlace F.ordm d sp → known src sp
  plugins : ∃ o, m.plugins = some (resolvedOf F p o)

theorem pluginsOfKind_invent {F : Front E L} {p : Parsed} {o : Data}
    (hp : ∀ o, ∀ q ∈ p.plugins, ∀ x, (F.resolve (ofPlugin q) o).1 = some x ∨ (F.resolve (ofPlugin q) o).2.1 = some x → InventsNoPlaces F.ordm x)
    (raw : Bool) : ∀ x ∈ pluginsOfKind raw (resolvedOf F p o), InventsNoPlaces F.ordm x := by
  intro x hx
  unfold pluginsOfKind resolvedOf at hx
  obtain ⟨r, hr, hx⟩ := List.mem_filterMap.1 hx
  obtain ⟨q', hq, rfl⟩ := List.mem_map.1 hr
  obtain ⟨q, hq', rfl⟩ := List.mem_map.1 hq
  obtain ⟨y, hy, rfl⟩ := Option.map_eq_some_iff.1 hx
  refine hp o q hq' y ?_
  cases raw
  · exact .inr hy
  · exact .inl hy

theorem mergeWithPod_alive (F : Front E L) (ho : IsMapOrder F.ordm) {known : E.Sources → Span → Prop} (hE : KnowsSpans E known) {n k : Nat}
    (hn : n < 2147483647) (src : E.Sources) (parsed : Except (List ParserError) Parsed) (ds : List Data)
    (hd : ∀ d ∈ ds, ∀ sp, MentionsPlace F.ordm d sp → known src sp) :
    ∃ n' k' src', n' ≤ n + 1 ∧ (mergeWithPod F (podOf n k src parsed) ds).1 = podOf n' k' src' parsed ∧ (∀ sp, known src sp → known src' sp) ∧
      ∀ xs, (mergeWithPod F (podOf n k src parsed) ds).2 = some xs → ∀ x ∈ xs, ∀ sp, MentionsPlace F.ordm x sp → known src' sp := by
  have hc := createSpans_ok F ho (k := k) hn src parsed (spanRequests F.texts F.txt ds)
  obtain ⟨g1, g2⟩ := createSpans_known hE (spanRequests F.texts F.txt ds) src
  unfold mergeWithPod
  dsimp only
  cases hr : (spanRequests F.texts F.txt ds).isEmpty with
  | true =>
    refine ⟨n, k, src, by omega, by simp, fun _ h => h, ?_⟩
    intro xs hx
    simp only [mergeWithProvenance, createWithProvenance, hr, if_true, Option.map_some, List.isEmpty_nil, Option.some.injEq] at hx
    subst hx
    exact hd
  | false =>
    refine ⟨n + 1, k + 1, (Server.createSpans src (spanRequests F.texts F.txt ds)).1, by omega, ?_, g1, ?_⟩
    · simp only [Bool.false_eq_true, if_false]
      unfold podOf
      rw [hc]
    · intro xs hx x hxm sp hsp
      simp only [mergeWithProvenance, createWithProvenance, hr, Bool.false_eq_true, if_false] at hx
      unfold podOf at hx
      rw [hc] at hx
      simp only [Option.map_some, Option.some.injEq] at hx
      split at hx
      · subst hx
        exact g1 _ (hd x hxm sp hsp)
      · subst hx
        rcases mapN_mentions hxm hsp with ⟨d, h1, h2⟩ | ⟨y, hy, h⟩
        · exact g1 _ (hd d h1 sp h2)
        · obtain ⟨s, hs, rfl⟩ := List.mem_map.1 hy
          rw [decSpan_ofSpan] at h
          cases h
          exact g2 _ hs

theorem plugins_held (F : Front E L) (hinj : Function.Injective F.hash) (ho : IsMapOrder F.ordm) {known : E.Sources → Span → Prop}
    (hE : KnowsSpans E known) {p : Parsed}
    (hp : ∀ o, ∀ q ∈ p.plugins, ∀ x, (F.resolve (ofPlugin q) o).1 = some x ∨ (F.resolve (ofPlugin q) o).2.1 = some x → InventsNoPlaces F.ordm x)
    (raw : Bool) {n : Nat} (hn : n < 2147483647) {m : LoadedBeans E} (h : Held F known p n m) (he : m.error = none) :
    ∃ m', runPluginsStage F raw m = .ok m' ∧ Held F known p (n + 1) m' := by
  obtain ⟨⟨n', k, src, hn', hpod, herr, hm⟩, o, hpl⟩ := h
  unfold runPluginsStage
  dsimp only
  split
  · exact ⟨m, rfl, ⟨⟨n', k, src, by omega, hpod, herr, hm⟩, o, hpl⟩⟩
  · rw [hpl, Option.getD_some, hpod]
    have hds : ∀ d ∈ (if raw then m.rawDirectives else m.bookedDirectives).getD [], ∀ sp, MentionsPlace F.ordm d sp → known src sp := by
      intro d hd
      cases hl : (if raw then m.rawDirectives else m.bookedDirectives) with
      | none => rw [hl] at hd; cases hd
      | some l =>
        rw [hl] at hd
        refine hm l ?_ d hd
        cases raw
        · exact .inr (.inr hl)
        · exact .inl hl
    generalize (if raw then m.rawDirectives else m.bookedDirectives).getD [] = ds at hds
    have key : ∃ n'' k' src', n'' ≤ n' + 1 ∧ (transformed F raw (pluginsOfKind raw (resolvedOf F p o)) (podOf n' k src (.ok p)) ds).1 = podOf n'' k' src' (.ok p) ∧
        (∀ sp, known src sp → known src' sp) ∧
        ∀ xs, (transformed F raw (pluginsOfKind raw (resolvedOf F p o)) (podOf n' k src (.ok p)) ds).2 = some xs →
          ∀ x ∈ xs, ∀ sp, MentionsPlace F.ordm x sp → known src' sp := by
      unfold transformed
      split
      · exact ⟨n', k, src, by omega, rfl, fun _ h => h, fun xs h => by cases h⟩
      · rename_i out hout
        refine mergeWithPod_alive F ho hE (by omega) src (.ok p) _ ?_
        intro d hd sp hsp
        have := C45_run hinj (objects_tok ds) hout
        rw [objects_data] at this
        obtain ⟨d', h1, h2⟩ := throughAll_mentions (pluginsOfKind_invent hp raw) this hd hsp
        exact hds d' h1 sp h2
    obtain ⟨n'', k', src', h1, h2, h3, h4⟩ := key
    split
    · rename_i pod ht
      rw [ht] at h2
      refine ⟨_, rfl, ⟨⟨n'', k', src', by omega, h2, trivial, ?_⟩, o, rfl⟩⟩
      exact fun l hl d hd sp hsp => h3 sp (hm l hl d hd sp hsp)
    · rename_i pod xs ht
      rw [ht] at h2 h4
      refine ⟨_, rfl, ⟨⟨n'', k', src', by omega, h2, ?_, ?_⟩, o, rfl⟩⟩
      · dsimp only
        split
        · rw [he]; trivial
        · intro d hd
          exact h4 xs rfl d (List.mem_of_mem_filter hd)
      · intro l hl d hd sp hsp
        dsimp only at hl
        rcases hl with hl | hl | hl
        · exact h3 sp (hm l (.inl hl) d hd sp hsp)
        · split at hl
          · cases hl
            exact h4 _ rfl d hd sp hsp
          · exact h3 sp (hm l (.inr (.inl hl)) d hd sp hsp)
        · exact h3 sp (hm l (.inr (.inr hl)) d hd sp hsp)

/-- The server has ended while booking. -/
structure Died (F : Front E L) (p : Parsed) (m : LoadedBeans E) : Prop where
  booked : ∃ ds, Booked F.ordm p m ds ∧ ¬ PadsOpened ds
  error : m.error = some (.booking (some []))

theorem book_held (F : Front E L) (ho : IsMapOrder F.ordm) (hs : IsOrder F.ord) (hf : ∀ n m, (F.orders n m).Perm m) (hL : DatesExist L)
    {known : E.Sources → Span → Prop} {p : Parsed} (hd : ∀ d ∈ p.directives, DatesOk d) (hsp : AllSpans p.directives) {n : Nat} (hn : n < 2147483647)
    {m : LoadedBeans E} (h : Held F known p n m) (he : m.error = none) :
    ∃ m', bookRawDirectives F m = .ok m' ∧ (Held F known p (n + 1) m' ∨ Died F p m') := by
  obtain ⟨⟨n', k, src, hn', hpod, herr, hm⟩, o, hpl⟩ := h
  have hraw : ∀ d ∈ (m.rawXfDirectives.or m.rawDirectives).getD [], ∀ sp, MentionsPlace F.ordm d sp → known src sp := by
    intro d hd
    cases h1 : m.rawXfDirectives with
    | some l => rw [h1] at hd; exact hm l (.inr (.inl h1)) d hd
    | none =>
      rw [h1] at hd
      cases h2 : m.rawDirectives with
      | some l => rw [h2] at hd; exact hm l (.inl h2) d hd
      | none => rw [h2] at hd; cases hd
  have stage := @book_stage E L F ho hs hL n' k (by omega) src p hd m
  have alive := book_alive F ho hf (k := k) (show n' < 2147483647 by omega) (src := src) hsp m.rawXfDirectives
  obtain ⟨m', hm'⟩ : ∃ m', bookRawDirectives F m = .ok m' := by
    unfold bookRawDirectives
    dsimp only
    split
    · exact ⟨_, rfl⟩
    · split <;> exact ⟨_, rfl⟩
  refine ⟨m', hm', ?_⟩
  cases he' : m'.error with
  | none =>
    left
    obtain ⟨ds, out, w, bs, -, -, h1, rfl⟩ := stage (m' := m') hpod hm' he'
    refine ⟨⟨n' + 1, k + 1, src, by omega, rfl, by rw [he']; trivial, ?_⟩, o, hpl⟩
    intro l hl d hd sp hsp
    rcases hl with hl | hl | hl
    · exact hm l (.inl hl) d hd sp hsp
    · exact hm l (.inr (.inl hl)) d hd sp hsp
    · cases hl
      have : ∃ b, Spec.Resolved (.vec ((m.rawXfDirectives.or m.rawDirectives).getD [])) (ofBooked F.ord b) d := by
        clear he' hm'
        generalize hq : (out.map fun b => ofBooked F.ord (withoutLostBooked b)) = q at h1
        clear stage
        induction h1 generalizing out with
        | nil => cases hd
        | cons h _ ih =>
          cases out with
          | nil => cases hq
          | cons b out =>
            cases hq
            rcases List.mem_cons.1 hd with rfl | hd
            · exact ⟨_, h⟩
            · exact ih out hd rfl
      obtain ⟨b, hb⟩ := this
      obtain ⟨d', h2, h3⟩ := resolved_mentions hb hsp
      exact hraw d' h2 sp h3
  | some e =>
    unfold bookRawDirectives at hm'
    dsimp only at hm'
    rw [hpod] at hm'
    rcases alive with ha | ⟨hds, ha⟩
    · left
      split at hm'
      · rename_i pod hb
        rw [hb] at ha
        cases hm'
        exact ⟨⟨n' + 1, k + 1, src, by omega, ha, trivial, hm⟩, o, hpl⟩
      · rename_i pod r hb
        rw [hb] at ha
        split at hm'
        · cases hm'
          rw [he] at he'
          cases he'
        · cases hm'
          refine ⟨⟨n' + 1, k + 1, src, by omega, ha, ?_, hm⟩, o, hpl⟩
          dsimp only
          cases hrs : resolveReportsFromRaw F.txt r.indexed (.vec ((m.rawXfDirectives.or m.rawDirectives).getD [])) with
          | none => trivial
          | some l =>
            intro x hx rep hrep sp hsp
            obtain ⟨y, -, hy⟩ := all_mem hrs hx
            obtain ⟨d, h1, h2⟩ := resolved_places ho hy hrep sp hsp
            exact hraw d h1 sp h2
    · right
      split at hm'
      · rename_i pod hb
        rw [hb] at ha
        cases ha
      · rename_i pod r hb
        rw [hb] at ha
        cases ha
        simp only [Data.truthy, Bool.false_eq_true, if_false] at hm'
        cases hm'
        obtain ⟨ds, h1, h2⟩ := hds
        refine ⟨⟨ds, ?_, h2⟩, rfl⟩
        unfold Booked
        dsimp only
        cases hx : m.rawXfDirectives with
        | none => rw [hx] at h1; exact h1
        | some xs => rw [hx] at h1; exact h1

/-- The stages after reading the directives. -/
theorem late_held (F : Front E L) (hinj : Function.Injective F.hash) (ho : IsMapOrder F.ordm) (hs : IsOrder F.ord)
    (hf : ∀ n m, (F.orders n m).Perm m) (hL : DatesExist L) {known : E.Sources → Span → Prop} (hE : KnowsSpans E known) {p : Parsed}
    (hd : ∀ d ∈ p.directives, DatesOk d) (hsp : AllSpans p.directives)
    (hp : ∀ o, ∀ q ∈ p.plugins, ∀ x, (F.resolve (ofPlugin q) o).1 = some x ∨ (F.resolve (ofPlugin q) o).2.1 = some x → InventsNoPlaces F.ordm x)
    {m : LoadedBeans E} (h : Held F known p 4 m) (he : m.error = none) :
    (∃ pod, bindAll m ((stages F).drop 2) = .error pod ∧ pod.alive = true) ∨
    ∃ m', bindAll m ((stages F).drop 2) = .ok m' ∧ (Held F known p 7 m' ∨ Died F p m') := by
  have mono : ∀ {n n' : Nat} {m : LoadedBeans E}, n ≤ n' → Held F known p n m → Held F known p n' m := by
    rintro n n' m hn ⟨⟨a, k, src, ha, h⟩, hpl⟩
    exact ⟨⟨a, k, src, by omega, h⟩, hpl⟩
  simp only [stages, List.drop_succ_cons, List.drop_zero]
  obtain ⟨m1, h1, g1⟩ := plugins_held F hinj ho hE hp true (by omega) h he
  rw [bindAll, if_neg (by simp [he]), h1]
  dsimp only
  cases he1 : m1.error with
  | some e => exact .inr ⟨m1, bindAll_error (by simp [he1]) _, .inl (mono (by omega) g1)⟩
  | none =>
    obtain ⟨m2, h2, g2⟩ := book_held F ho hs hf hL hd hsp (by omega) g1 he1
    rw [bindAll, if_neg (by simp [he1]), h2]
    dsimp only
    rcases g2 with g2 | g2
    · cases he2 : m2.error with
      | some e => exact .inr ⟨m2, bindAll_error (by simp [he2]) _, .inl (mono (by omega) g2)⟩
      | none =>
        obtain ⟨m3, h3, g3⟩ := plugins_held F hinj ho hE hp false (by omega) g2 he2
        rw [bindAll, if_neg (by simp [he2]), h3]
        dsimp only
        cases he3 : m3.error with
        | some e => exact .inr ⟨m3, bindAll_error (by simp [he3]) _, .inl g3⟩
        | none =>
          obtain ⟨⟨n', k, src, hn', hpod, herr, hm⟩, hpl⟩ := g3
          rw [bindAll, if_neg (by simp [he3]), setDirectives]
          dsimp only
          rw [bindAll, if_neg (by simp [he3]), setRegistry]
          dsimp only
          split
          · rename_i heq
            split at heq
            · cases heq
              exact .inl ⟨_, rfl, by rw [hpod]; rfl⟩
            · cases heq
          · rename_i heq
            split at heq
            · cases heq
            · cases heq
              exact .inr ⟨_, rfl, .inl ⟨⟨n', k, src, hn', hpod, herr, hm⟩, hpl⟩⟩
    · exact .inr ⟨m2, bindAll_error (by simp [g2.error]) _, .inr g2⟩

end Clj

/-- C112: loading a beanfile and printing its errors leave the server running, whatever the plugins are, if they make up no places. The
exceptions are a beanfile which could not be read, whose server is stopped, and a pad of the booked directives with a source which was
not opened before the assertion: then the failure of booking comes without a single report. Also if loading throws, the server runs on. -/
theorem C112_alive (F : Front E L) (hinj : Function.Injective F.hash) (ho : IsMapOrder F.ordm) (hs : IsOrder F.ord)
    (hf : ∀ n m, (F.orders n m).Perm m) (hL : DatesExist L) {known : E.Sources → Span → Prop} (hE : KnowsSpans E known) {s : Server E}
    (hk : ∀ src parsed, s = .ready src parsed → ∀ sp ∈ ledgerSpans parsed, known src sp)
    (hp : ∀ src p, s = .ready src (.ok p) → OptionsOk p.options ∧ AllSpans p.directives ∧ (∀ d ∈ p.directives, DatesOk d) ∧
      ∀ o, ∀ q ∈ p.plugins, ∀ x, (F.resolve (ofPlugin q) o).1 = some x ∨ (F.resolve (ofPlugin q) o).2.1 = some x → InventsNoPlaces F.ordm x) :
    match loadBeanfile F s with
    | .error none => ∃ msg, s = .unreadable msg
    | .error (some pod) => pod.alive = true
    | .ok m => (printErrors F m.pod m.error).1.alive = true ∨
        ∃ src p ds, s = .ready src (.ok p) ∧ Booked F.ordm p m ds ∧ ¬ PadsOpened ds ∧ m.error = some (.booking (some [])) := by
  cases s with
  | unreadable msg =>
    have : loadBeanfile F (.unreadable msg : Server E) = .error none := by
      unfold loadBeanfile
      rw [start_unreadable F ho]
    rw [this]
    exact ⟨msg, rfl⟩
  | ready src parsed =>
    have hk := hk src parsed rfl
    cases parsed with
    | error es =>
      have : loadBeanfile F (.ready src (.error es) : Server E) = .ok
          { pod := ready 2 src (.error es), error := some (.parser (.vec ((Server.parserReports es).map ofReport))) } := by
        unfold loadBeanfile
        rw [start_ready F ho]
        dsimp only
        simp only [stages]
        rw [bindAll, if_neg (by simp)]
        simp only [getPluginsAndOptions, plugins_error F ho (n := 1) (by omega), Data.truthy, Bool.false_eq_true, if_false]
        rw [bindAll_error rfl]
      rw [this]
      left
      refine printErrors_alive F ho hf hE (n := 2) (k := 2) (by omega) (src := src) (parsed := .error es) (fun p e => by cases e) ?_
      intro y hy r hr sp hsp
      rw [reportsOf, Data.elems] at hy
      obtain ⟨r', hr', rfl⟩ := List.mem_map.1 hy
      rw [decReport_toJson ho] at hr
      cases hr
      exact hk _ (parserReports_mem _ (List.mem_flatMap.2 ⟨_, hr', hsp⟩))
    | ok p =>
      obtain ⟨hopt, hsp, hd, hpl⟩ := hp src p rfl
      have hfirst : ∃ m, bindAll { pod := ready 1 src (.ok p) } ((stages F).take 2) = .ok m ∧
          (Held F known p 4 m ∧ m.error = none ∨ ∃ n l, n ≤ 4 ∧ m.pod = podOf n n src (.ok p) ∧ m.error = some (.plugins l)) := by
        obtain ⟨o, hx, h⟩ := options_ok F ho hs (n := 2) (by omega) src hopt
        simp only [stages, List.take_succ_cons, List.take_zero, bindAll, Option.isSome_none, Bool.false_eq_true, if_false, getPluginsAndOptions,
          plugins_ok F ho (n := 1) (by omega), h, Data.truthy, if_true, Data.elems]
        by_cases hh : (((p.plugins.map ofPlugin).map (resolvePlugin F o)).filter (fun p => p.err.isSome)).isEmpty = true
        · simp only [hh, if_true, Option.isSome_none, Bool.false_eq_true, if_false, getRawDirectives,
            directives_ok F ho hs (n := 3) (by omega) src hd, Data.truthy]
          refine ⟨_, rfl, .inl ⟨⟨⟨4, 4, src, Nat.le_refl _, rfl, trivial, ?_⟩, o, rfl⟩, rfl⟩⟩
          rintro l (hl | hl | hl) x hx sp hm
          · cases hl
            obtain ⟨d, h1, rfl⟩ := List.mem_map.1 hx
            exact hk sp (List.mem_flatMap.2 ⟨d, h1, mentions_directive hm⟩)
          · cases hl
          · cases hl
        · simp only [hh, Bool.false_eq_true, if_false, Option.isSome_some, if_true]
          exact ⟨_, rfl, .inr ⟨3, _, by omega, rfl, rfl⟩⟩
      obtain ⟨m1, h1, hm1⟩ := hfirst
      unfold loadBeanfile
      rw [start_ready F ho]
      dsimp only
      rw [← List.take_append_drop 2 (stages F), bindAll_append, h1]
      dsimp only
      rcases hm1 with ⟨hh, he1⟩ | ⟨n, l, hn, hpod, he1⟩
      · rcases late_held F hinj ho hs hf hL hE hd hsp hpl hh he1 with ⟨pod, e, ha⟩ | ⟨m, e, hm⟩
        · rw [e]; exact ha
        · rw [e]
          dsimp only
          rcases hm with hm | hm
          · left
            obtain ⟨⟨n', k, src', hn', hpod, herr, -⟩, -⟩ := hm
            rw [hpod]
            exact printErrors_alive F ho hf hE (by omega) (fun q e => by cases e; exact hsp) herr
          · right
            obtain ⟨⟨ds, h2, h3⟩, h4⟩ := hm
            exact ⟨src, p, ds, rfl, h2, h3, h4⟩
      · rw [bindAll_error (by simp [he1])]
        left
        rw [hpod, he1]
        rfl

namespace Ex

/-- A library of sources which cannot write reports about places in files which it does not know. -/
def strictExt : Ext :=
  { Toy.ext with writeReport := fun (src : List (Str × Str)) _ r =>
      if (reportSpans r).all fun sp => decide (sp.source < src.length) then some (r.message ++ r.reason ++ ['\n']) else none }

/-- It knows the places in its files. -/
def strictKnown (src : strictExt.Sources) (sp : Span) : Prop := sp.source < List.length (α := Str × Str) src

theorem strictKnows : KnowsSpans strictExt strictKnown := by
  obtain ⟨h1, -, h2, h3⟩ := Toy.knows
  refine ⟨h1, ?_, h2, h3⟩
  intro src e r h
  refine ⟨r.message ++ r.reason ++ ['\n'], if_pos ?_⟩
  exact List.all_eq_true.2 fun sp hsp => decide_eq_true (h sp hsp)

/-- A front end which finds this raw plugin, whatever the name. -/
def frontOf (x : Plugin) : Front strictExt Toy.lib :=
  { orders := front.orders, ord := front.ord, ordm := front.ordm, txt := front.txt, texts := front.texts, hash := front.hash
    valid := front.valid, registry := front.registry, resolve := fun _ _ => (some x, none, none) }

/-- A server on a ledger with a plugin and an account, or what else is given. -/
def ledgerOf (ds : List Raw.Directive) : Server strictExt :=
  .ready ([(str% "a.bean", str% "2024-01-01 open Assets:Bank")] : List (Str × Str))
    (.ok { directives := ds, options := Toy.options, plugins := [(str% "checks", none)] })

/-- A plugin which finds fault with every directive. -/
def faultFinder : Plugin where
  name := str% "checks"
  step l := match l.getLast? with
    | some d => [.new (d.assoc (str% "err") (.vec [.map [(str% "message", .str (str% "no comment"))]]))]
    | none => []
  finish _ := []

/-- A plugin which passes everything on. -/
def faultless : Plugin where
  name := str% "checks"
  step l := [.old (l.length - 1)]
  finish _ := []

/-- An account, opened in a file. -/
def openedBank : Raw.Directive := { Toy.mkOpen 1 bank with span := some ⟨0, 0, 27⟩ }

/-- A plugin which repeats every directive, at a place which it has made up. -/
def faker : Plugin where
  name := str% "checks"
  step l := match l.getLast? with
    | some d => [.old (l.length - 1), .new (d.assoc (str% "span") (ofSpan ⟨7, 0, 1⟩))]
    | none => []
  finish _ := []

/-- The server after loading and printing the errors, and whether there were any. -/
def afterwards (F : Front strictExt Toy.lib) (s : Server strictExt) : Option (Bool × Bool) := match loadBeanfile F s with
  | .ok m => some ((printErrors F m.pod m.error).1.alive, m.error.isSome)
  | .error _ => none

end Ex

open Ex in
theorem Ex.faultFinder_honest (ordm : List (Str × Json) → List (Str × Json)) : InventsNoPlaces ordm faultFinder := by
  intro l d h sp hm
  rcases h with h | h
  · simp only [faultFinder] at h
    split at h
    · rename_i x hx
      refine ⟨x, List.mem_of_getLast? hx, ?_⟩
      rw [List.mem_singleton] at h
      cases h
      obtain ⟨e, he, k, hk, h⟩ := hm
      have other : ∀ k', k' ≠ str% "err" → ∀ v, (x.assoc (str% "err") v).get k' = x.get k' := by
        intro k' hk' v
        rcases get_assoc_or x (str% "err") k' v with h | ⟨h, -⟩
        · exact h
        · exact absurd h hk'
      rw [other _ (by decide)] at he
      rcases he with rfl | he
      · rw [other k (by rcases hk with rfl | rfl <;> decide)] at h
        exact ⟨x, .inl rfl, k, hk, h⟩
      · exact ⟨e, .inr he, k, hk, h⟩
    · cases h
  · cases h

/-- The hypotheses are met by a ledger with an account and a plugin which finds fault with it. -/
example : Function.Injective (Ex.frontOf Ex.faultFinder).hash ∧ IsMapOrder (Ex.frontOf Ex.faultFinder).ordm ∧ IsOrder (Ex.frontOf Ex.faultFinder).ord ∧
    (∀ n m, ((Ex.frontOf Ex.faultFinder).orders n m).Perm m) ∧ DatesExist Toy.lib ∧ KnowsSpans Ex.strictExt Ex.strictKnown ∧
    (∀ src parsed, Ex.ledgerOf [Ex.openedBank] = .ready src parsed → ∀ sp ∈ ledgerSpans parsed, Ex.strictKnown src sp) ∧
    (∀ src p, Ex.ledgerOf [Ex.openedBank] = .ready src (.ok p) → OptionsOk p.options ∧ AllSpans p.directives ∧ (∀ d ∈ p.directives, DatesOk d) ∧
      ∀ o, ∀ q ∈ p.plugins, ∀ x, ((Ex.frontOf Ex.faultFinder).resolve (ofPlugin q) o).1 = some x ∨
        ((Ex.frontOf Ex.faultFinder).resolve (ofPlugin q) o).2.1 = some x → InventsNoPlaces (Ex.frontOf Ex.faultFinder).ordm x) := by
  refine ⟨fun a b h => h, fun l => .refl l, fun l => .refl l, fun n m => .refl m, Toy.lib_dates, Ex.strictKnows, ?_, ?_⟩
  · intro src parsed h sp hsp
    cases h
    have : sp = ⟨0, 0, 27⟩ := by simpa [ledgerSpans, directiveSpans, Ex.openedBank, Toy.mkOpen] using hsp
    subst this
    exact Nat.zero_lt_one
  · intro src p h
    cases h
    refine ⟨by simp [OptionsOk, Toy.options, NoDatesEntries], ?_, ?_, ?_⟩
    · simp [AllSpans, Ex.openedBank, Toy.mkOpen]
    · intro d hd
      rw [List.mem_singleton] at hd
      subst hd
      exact ⟨Wire.validDate_iff.1 (by decide +kernel), by simp [Ex.openedBank, Toy.mkOpen, MetadataOk], trivial⟩
    · rintro o q - x (h | h)
      · cases h
        exact Ex.faultFinder_honest _
      · cases h

/-- Its errors are printed and the server runs on. -/
example : Ex.afterwards (Ex.frontOf Ex.faultFinder) (Ex.ledgerOf [Ex.openedBank]) = some (true, true) := by decide +kernel

/-- The places must not be made up: the account is opened twice, and printing this error ends the server. -/
theorem C112_made_up : Ex.afterwards (Ex.frontOf Ex.faker) (Ex.ledgerOf [Ex.openedBank]) = some (false, true) := by decide +kernel

/-- The sources of pads must be opened: booking ends the server. -/
theorem C112_unopened : Ex.afterwards (Ex.frontOf Ex.faultless) (Ex.ledgerOf [Ex.openedBank,
    { Toy.mkPad 2 Ex.bank Ex.equity with span := some ⟨0, 0, 27⟩ }, { Toy.mkBal 3 Ex.bank ⟨10, 0⟩ Ex.nzd with span := some ⟨0, 0, 27⟩ }]) =
    some (false, true) := by
  decide +kernel

end Limabean
