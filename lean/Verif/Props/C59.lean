/-
C59: loading a ledger yields its booked directives, and plugins which pass on what they receive make no difference.

False: with any raw plugin the client checks the directives, and refuses an integer tolerance (`C59_false`, and in general `C54_refused`). It
holds for ledgers whose numbers pass that check (`C59_partial`), and without plugins for all (`C59_plain`).
-/
import Verif.Proofs.PassingLemmas
import Verif.Proofs.DateLemmas

namespace Limabean

open Spec Clj

variable {E : Ext} {L : BookLib}

namespace Spec

/-- The plugins of the ledger are found; those for raw directives pass on what they receive, there are none for booked directives. -/
def PassingPlugins (F : Front E L) (p : Parsed) : Prop :=
  ∀ q ∈ p.plugins, ∀ o, (F.resolve (ofPlugin q) o).2.2 = none ∧ (F.resolve (ofPlugin q) o).2.1 = none ∧
    ∀ pl, (F.resolve (ofPlugin q) o).1 = some pl → Passing pl

/-- The data are those of the booked directive, with the span of the raw directive, its postings with the spans of the raw postings. -/
def LoadedAs (ord : List Data → List Data) (ds : List Raw.Directive) (b : Booked.Directive) (r : Data) : Prop :=
  r.get (str% "span") = spanDatum ((ds[b.idx]?).bind (·.span)) ∧
  (∀ k, k ≠ str% "span" → k ≠ str% "postings" → r.get k = (ofBooked ord b).get k) ∧
  ∀ t, b.variant = .transaction t → ∃ qs, r.get (str% "postings") = .vec qs ∧ List.Forall₂ (fun p q =>
    q.get (str% "span") = spanDatum (rawPostingSpan ds b.idx p.idx) ∧
    ∀ k, k ≠ str% "span" → q.get k = (ofBookedPosting ord p).get k) t.postings qs

end Spec

namespace Clj

theorem rawPostingSpan_lost (ds : List Raw.Directive) (i : Nat) (j : Option Nat) :
    rawPostingSpan (ds.map withoutLostMeta) i j = rawPostingSpan ds i j := by
  unfold rawPostingSpan
  rw [List.getElem?_map]
  cases ds[i]? with
  | none => rfl
  | some d =>
    simp only [Option.map_some, Option.bind_eq_bind, Option.bind_some, withoutLostMeta]
    cases hd : d.variant with
    | transaction t =>
      cases j with
      | none => rfl
      | some j =>
        simp only [List.getElem?_map]
        cases t.postings[j]? <;> rfl
    | _ => cases j <;> rfl

/-- What `resolve-directives-from-raw` makes of the answer. -/
theorem loadedAs (ord : List Data → List Data) (ds : List Raw.Directive) (out : List Booked.Directive) :
    List.Forall₂ (LoadedAs ord ds) (out.map withoutLostBooked)
      (resolveDirectives ((bookedAnswer ord out).get (str% "directives")) (.vec (ds.map fun d => ofDirective ord (withoutLostMeta d)))).elems := by
  obtain ⟨l, h1, h2⟩ := C42_ledger ord (ds.map withoutLostMeta) (out.map withoutLostBooked)
  have e : resolveDirectives ((bookedAnswer ord out).get (str% "directives")) (.vec (ds.map fun d => ofDirective ord (withoutLostMeta d))) =
      .vec l := by
    rw [← h1, List.map_map, List.map_map]
    rfl
  rw [e]
  refine h2.imp fun b r h => ?_
  obtain ⟨h3, h4, h5⟩ := h
  refine ⟨?_, h4, fun t ht => ?_⟩
  · rw [h3, List.getElem?_map]
    cases ds[b.idx]? <;> rfl
  · obtain ⟨qs, h6, h7⟩ := h5 t ht
    refine ⟨qs, h6, h7.imp fun p q h => ?_⟩
    rw [rawPostingSpan_lost] at h
    exact h

/-- The stages after booking, without booked plugins. -/
theorem finish_load (F : Front E L) (hreg : ∀ l o, F.registry l o ≠ none) {m : LoadedBeans E} (hp : pluginsOfKind false (m.plugins.getD []) = [])
    (he : m.error = none) (hx : m.bookedXfDirectives = none) {l : List Data} (hb : m.bookedDirectives = some l) :
    ∃ m', bindAll m [runPluginsStage F false, setDirectives, setRegistry F] = .ok m' ∧ m'.error = none ∧ m'.directives = some l := by
  cases hr : F.registry l m.options with
  | none => exact absurd hr (hreg _ _)
  | some r =>
    refine ⟨{ m with directives := some l, registry := some r }, ?_, he, rfl⟩
    simp only [bindAll, he, Option.isSome_none, Bool.false_eq_true, if_false, runPluginsStage, hp, List.isEmpty_nil, if_true, setDirectives,
      hx, Option.none_or, hb, Option.getD_some, setRegistry, hr]

theorem passing_resolved {F : Front E L} {p : Parsed} (h : PassingPlugins F p) (o : Data) :
    (∀ r ∈ resolvedOf F p o, r.err = none) ∧ (∀ q ∈ pluginsOfKind true (resolvedOf F p o), Passing q) ∧
      pluginsOfKind false (resolvedOf F p o) = [] := by
  have h1 : ∀ r ∈ resolvedOf F p o, ∃ q ∈ p.plugins, r = resolvePlugin F o (ofPlugin q) := by
    intro r hr
    unfold resolvedOf at hr
    rw [List.map_map] at hr
    obtain ⟨q, hq, rfl⟩ := List.mem_map.1 hr
    exact ⟨q, hq, rfl⟩
  refine ⟨fun r hr => ?_, fun q hq => ?_, ?_⟩
  · obtain ⟨q, hq, rfl⟩ := h1 r hr
    exact (h q hq o).1
  · unfold pluginsOfKind at hq
    obtain ⟨r, hr, hx⟩ := List.mem_filterMap.1 hq
    obtain ⟨q', hq', rfl⟩ := h1 r hr
    simp only [if_true, Option.map_eq_some_iff] at hx
    obtain ⟨pl, hpl, rfl⟩ := hx
    exact (h q' hq' o).2.2 pl hpl
  · unfold pluginsOfKind
    rw [List.filterMap_eq_nil_iff]
    intro r hr
    obtain ⟨q, hq, rfl⟩ := h1 r hr
    simp [resolvePlugin, (h q hq o).2.1]

/-- What the client has after the raw plugins; `xs` is what they have made. -/
def afterRaw (F : Front E L) (src : E.Sources) (p : Parsed) (o : Data) (xs : Option (List Data)) : LoadedBeans E :=
  { pod := ready 4 src (.ok p), plugins := some (resolvedOf F p o), options := o
    rawDirectives := some (p.directives.map fun d => ofDirective F.ord (withoutLostMeta d)), rawXfDirectives := xs }

/-- The stages from booking on, if booking succeeds. -/
theorem load_booked (F : Front E L) (ho : IsMapOrder F.ordm) (hs : IsOrder F.ord) (hreg : ∀ l o, F.registry l o ≠ none) (src : E.Sources)
    {p : Parsed} {o : Data} {xs : Option (List Data)} (hq : pluginsOfKind false (resolvedOf F p o) = [])
    (hx : xs = none ∨ xs = some (p.directives.map fun d => ofDirective F.ord (withoutLostMeta d))) {ds : Option (List Raw.Directive)}
    (hm : Wire.decMethod (requestEntries F.ordm (str% "book") (bookParams xs) 5) = some (.book ds))
    {out : List Booked.Directive} {w : List IndexedReport}
    (hb : book L (F.orders 4) (Server.bookOptions p.options) (ds.getD p.directives) = .success out w) (hc : ∀ b ∈ out, BookedDatesOk b) :
    ∃ m l, bindAll (afterRaw F src p o xs) ((stages F).drop 3) = .ok m ∧ m.error = none ∧ m.directives = some l ∧
      List.Forall₂ (LoadedAs F.ord p.directives) (out.map withoutLostBooked) l := by
  have h1 := book_success F ho hs (n := 4) (k := 4) (by omega) (src := src) (p := p) (xs := xs) (ds := ds) hm hb hc
    (bookParams_shallow (by rcases hx with rfl | rfl <;> simp [notTooDeep_parsed hs]))
  obtain ⟨m, h2, h3, h4⟩ := finish_load F hreg
    (m := { afterRaw F src p o xs with
            pod := ready 5 src (.ok p)
            bookedDirectives := some (resolveDirectives ((bookedAnswer F.ord out).get (str% "directives"))
              (.vec (p.directives.map fun d => ofDirective F.ord (withoutLostMeta d)))).elems }) hq rfl rfl rfl
  refine ⟨m, _, ?_, h3, h4, loadedAs F.ord p.directives out⟩
  rw [← h2]
  simp only [stages, List.drop_succ_cons, List.drop_zero]
  rw [bindAll, if_neg (by simp [afterRaw])]
  have e : (xs.or (some (p.directives.map fun d => ofDirective F.ord (withoutLostMeta d)))).getD [] =
      p.directives.map fun d => ofDirective F.ord (withoutLostMeta d) := by
    rcases hx with rfl | rfl <;> rfl
  have e' : bookRawDirectives F (afterRaw F src p o xs) = .ok { afterRaw F src p o xs with
      pod := ready 5 src (.ok p)
      bookedDirectives := some (resolveDirectives ((bookedAnswer F.ord out).get (str% "directives"))
        (.vec (p.directives.map fun d => ofDirective F.ord (withoutLostMeta d)))).elems } := by
    unfold bookRawDirectives afterRaw
    simp only [show (ready 4 src (.ok p)).book F xs = _ from h1, e]
    rfl
  rw [e']

/-- Loading up to the raw plugins, if these pass on what they receive. -/
theorem load_passing (F : Front E L) (ho : IsMapOrder F.ordm) (hs : IsOrder F.ord) (src : E.Sources) {p : Parsed}
    (hp : OptionsOk p.options) (hd : ∀ d ∈ p.directives, DatesOk d) (hq : PassingPlugins F p)
    (hv : ∀ d ∈ p.directives, ∀ pl q o, q ∈ p.plugins → (F.resolve (ofPlugin q) o).1 = some pl →
      F.valid true (ofDirective F.ord (withoutLostMeta d)) = true) :
    ∃ o, (∃ xs, (xs = none ∨ xs = some (p.directives.map fun d => ofDirective F.ord (withoutLostMeta d))) ∧
      (xs = none ↔ ∀ q ∈ p.plugins, (F.resolve (ofPlugin q) o).1 = none) ∧
      loadBeanfile F (.ready src (.ok p)) = match bindAll (afterRaw F src p o xs) ((stages F).drop 3) with
        | .error pod => .error (some pod)
        | .ok m => .ok m) := by
  obtain ⟨o, -, h⟩ := prepared F ho hs src hp hd fun o => (passing_resolved hq o).1
  have hl : loadBeanfile F (.ready src (.ok p)) = match bindAll (afterRaw F src p o none) ((stages F).drop 2) with
        | .error pod => .error (some pod)
        | .ok m => .ok m := by
    unfold loadBeanfile
    rw [start_ready F ho]
    dsimp only
    rw [← List.take_append_drop 2 (stages F), bindAll_append, h]
    rfl
  have hk : pluginsOfKind true (resolvedOf F p o) = [] ↔ ∀ q ∈ p.plugins, (F.resolve (ofPlugin q) o).1 = none := by
    unfold pluginsOfKind resolvedOf
    rw [List.filterMap_eq_nil_iff]
    constructor
    · intro h q hq
      simpa [resolvePlugin] using h _ (List.mem_map_of_mem (List.mem_map_of_mem hq))
    · intro h r hr
      rw [List.map_map] at hr
      obtain ⟨q, hq, rfl⟩ := List.mem_map.1 hr
      simp [resolvePlugin, h q hq]
  by_cases he : pluginsOfKind true (resolvedOf F p o) = []
  · refine ⟨o, none, .inl rfl, by simpa using hk.1 he, ?_⟩
    rw [hl]
    simp only [stages, List.drop_succ_cons, List.drop_zero]
    rw [bindAll, if_neg (by simp [afterRaw])]
    have : runPluginsStage F true (afterRaw F src p o none) = .ok (afterRaw F src p o none) := by
      simp [runPluginsStage, afterRaw, he]
    rw [this]
  · have hne : ¬ ∀ q ∈ p.plugins, (F.resolve (ofPlugin q) o).1 = none := fun h => he (hk.2 h)
    refine ⟨o, some (p.directives.map fun d => ofDirective F.ord (withoutLostMeta d)), .inr rfl, by simpa using hne, ?_⟩
    rw [hl]
    simp only [stages, List.drop_succ_cons, List.drop_zero]
    rw [bindAll, if_neg (by simp [afterRaw])]
    push Not at hne
    obtain ⟨q, hq1, hq2⟩ := hne
    obtain ⟨pl, hpl⟩ := Option.ne_none_iff_exists'.1 hq2
    have ht := transformed_passing F (pluginsOfKind true (resolvedOf F p o)) (passing_resolved hq o).2.1 (ready 4 src (.ok p))
      (p.directives.map fun d => ofDirective F.ord (withoutLostMeta d)) (by
        intro x hx
        obtain ⟨d, hd, rfl⟩ := List.mem_map.1 hx
        exact hv d hd pl q o hq1 hpl) (by
        intro x hx
        obtain ⟨d, hd, rfl⟩ := List.mem_map.1 hx
        exact noProvenance_ofDirective _ _)
    have hf : (p.directives.map fun d => ofDirective F.ord (withoutLostMeta d)).filter (fun d => (d.get (str% "err")).truthy) = [] := by
      rw [List.filter_eq_nil_iff]
      intro x hx
      obtain ⟨d, hd, rfl⟩ := List.mem_map.1 hx
      have := isErr_ofDirective F.ord (withoutLostMeta d)
      simpa [isErr] using this
    have : runPluginsStage F true (afterRaw F src p o none) =
        .ok (afterRaw F src p o (some (p.directives.map fun d => ofDirective F.ord (withoutLostMeta d)))) := by
      have he' : (pluginsOfKind true (resolvedOf F p o)).isEmpty = false := by simpa using he
      simp only [runPluginsStage, afterRaw, Option.getD_some, he', Bool.false_eq_true, if_false, if_true, ht, hf, List.isEmpty_nil]
    rw [this]

theorem bookedLike_refl (b : Booked.Directive) : BookedLike .upToOrder b b where
  idx := rfl
  date := rfl
  tags := SameSet.refl _
  links := SameSet.refl _
  metadata := SameSet.refl _
  variant := by
    cases b.variant with
    | transaction t =>
      exact ⟨List.forall₂_same.2 fun p _ => ⟨.inl ⟨SameSet.refl _, SameSet.refl _, SameSet.refl _⟩, rfl⟩, rfl⟩
    | opn o => exact ⟨SameSet.refl _, rfl⟩
    | _ => rfl

end Clj

/-- C59 without plugins: if booking the directives of the beanfile succeeds, loading yields the booked directives, in order, with their
places. (Metadata whose key is `dct` or `booking` are lost, see C44.) -/
theorem C59_plain (F : Front E L) (ho : IsMapOrder F.ordm) (hs : IsOrder F.ord) (hreg : ∀ l o, F.registry l o ≠ none) (hL : DatesExist L) (src : E.Sources)
    {p : Parsed} (hp : OptionsOk p.options) (hd : ∀ d ∈ p.directives, DatesOk d) (hq : p.plugins = [])
    {out : List Booked.Directive} {w : List IndexedReport}
    (hb : book L (F.orders 4) (Server.bookOptions p.options) p.directives = .success out w) :
    ∃ m l, loadBeanfile F (.ready src (.ok p)) = .ok m ∧ m.error = none ∧ m.directives = some l ∧
      List.Forall₂ (LoadedAs F.ord p.directives) (out.map withoutLostBooked) l := by
  obtain ⟨o, xs, h1, h2, h3⟩ := load_passing F ho hs src hp hd (by intro q h; simp [hq] at h) (by intro d _ pl q o h; simp [hq] at h)
  have hc := book_dates hL hd hb
  have hx : xs = none := h2.2 (by simp [hq])
  subst hx
  obtain ⟨m, l, h4, h5⟩ := load_booked F ho hs hreg src (xs := none) (ds := none) (p := p) (o := o) (by simp [resolvedOf, hq, pluginsOfKind])
    (.inl rfl) (decMethod_plain (x := .book none) (by simp)) hb hc
  exact ⟨m, l, by rw [h3, h4], h5⟩

/-- C59 for ledgers whose numbers satisfy the client's specification: if all plugins pass on what they receive, then loading yields the
same booked directives as booking what is in the beanfile, up to the order of sets and maps. Missing: other numbers, for which it is false
(`C59_false`). -/
theorem C59_partial (F : Front E L) (hL : Blind L) (hL' : DatesExist L) (ho : IsMapOrder F.ordm) (hs : IsOrder F.ord) (hreg : ∀ l o, F.registry l o ≠ none)
    (hf : ∀ k m, (F.orders k m).Perm m) (hv : F.valid = validDct) (src : E.Sources)
    {p : Parsed} (hp : OptionsOk p.options) (hd : ∀ d ∈ p.directives, DirectiveOk d ∧ DatesOk d ∧ NumbersFit (withoutLostMeta d))
    (hq : PassingPlugins F p) {out : List Booked.Directive} {w : List IndexedReport}
    (hb : book L (F.orders 4) (Server.bookOptions p.options) p.directives = .success out w) :
    ∃ m l out', loadBeanfile F (.ready src (.ok p)) = .ok m ∧ m.error = none ∧ m.directives = some l ∧
      List.Forall₂ (LoadedAs F.ord p.directives) out' l ∧ List.Forall₂ (BookedLike .upToOrder) (out.map withoutLostBooked) out' := by
  obtain ⟨o, xs, h1, -, h3⟩ := load_passing F ho hs src hp (fun d h => (hd d h).2.1) hq (by
    intro d h pl q o _ _
    rw [hv]
    exact (valid_raw hs _).2 (hd d h).2.2)
  have hk := (passing_resolved hq o).2.2
  have hc := book_dates hL' (fun d h => (hd d h).2.1) hb
  rcases h1 with rfl | rfl
  · obtain ⟨m, l, h4, h5, h6, h7⟩ := load_booked F ho hs hreg src (xs := none) (ds := none) (p := p) (o := o) hk
      (.inl rfl) (decMethod_plain (x := .book none) (by simp)) hb hc
    exact ⟨m, l, _, by rw [h3, h4], h5, h6, h7, List.forall₂_same.2 fun b _ => bookedLike_refl b⟩
  · obtain ⟨es, h4, h5⟩ := sent_back hs ho fun d h => (hd d h).1
    have h6 := C58_attached hL .reread (F.orders 4) (F.orders 4) (hf 4) (hf 4) (Server.bookOptions p.options) h5
    rw [hb] at h6
    cases hb' : book L (F.orders 4) (Server.bookOptions p.options) es with
    | success out' w' =>
      rw [hb'] at h6
      obtain ⟨h7, -⟩ := h6
      obtain ⟨m, l, h8, h9, h10, h11⟩ := load_booked F ho hs hreg src (ds := some es) (p := p) (o := o) hk
        (.inr rfl) (by rw [bookParams, Option.map_some, Option.getD_some, decMethod_book, h4]; rfl) hb' (by
          intro c hc'
          obtain ⟨b, hb, hbc⟩ := forall₂_right h7 hc'
          exact booked_reread_dates hbc (hc b hb))
      exact ⟨m, l, _, by rw [h3, h8], h9, h10, h11, booked_reread_all h7⟩
    | failure es' => rw [hb'] at h6; exact h6.elim
    | panic => rw [hb'] at h6; exact h6.elim

/-- And if booking fails, the reports which arrive are those of booking what is in the beanfile, up to the order of the trailing reports on
unused pads; here some plugin works on raw directives (else see `C41_silent`). -/
theorem C59_failure_partial (F : Front E L) (hL : Blind L) (ho : IsMapOrder F.ordm) (hs : IsOrder F.ord)
    (hf : ∀ k m, (F.orders k m).Perm m) (hv : F.valid = validDct) (src : E.Sources)
    {p : Parsed} (hp : OptionsOk p.options) (hd : ∀ d ∈ p.directives, DirectiveOk d ∧ DatesOk d ∧ NumbersFit (withoutLostMeta d))
    (hq : PassingPlugins F p) (hr : ∃ q ∈ p.plugins, ∀ o, (F.resolve (ofPlugin q) o).1 ≠ none) {es : List IndexedReport}
    (hb : book L (F.orders 4) (Server.bookOptions p.options) p.directives = .failure es) :
    ∃ m rs a b b', loadBeanfile F (.ready src (.ok p)) = .ok m ∧ m.error = some (.booking (some rs)) ∧
      List.Forall₂ (Reports E (p.directives.map fun d => ofDirective F.ord (withoutLostMeta d))) (a ++ b') rs ∧
      es = a ++ b ∧ b.Perm b' ∧ ∀ rep ∈ b, rep.reason = .unusedNoBalance := by
  obtain ⟨o, xs, h1, h2, h3⟩ := load_passing F ho hs src hp (fun d h => (hd d h).2.1) hq (by
    intro d h pl q o _ _
    rw [hv]
    exact (valid_raw hs _).2 (hd d h).2.2)
  rcases h1 with rfl | rfl
  · obtain ⟨q, hq1, hq2⟩ := hr
    exact absurd (h2.1 rfl q hq1) (hq2 o)
  · obtain ⟨ds, h4, h5⟩ := sent_back hs ho fun d h => (hd d h).1
    have h6 := C58_attached hL .reread (F.orders 4) (F.orders 4) (hf 4) (hf 4) (Server.bookOptions p.options) h5
    rw [hb] at h6
    cases hb' : book L (F.orders 4) (Server.bookOptions p.options) ds with
    | success out' w' => rw [hb'] at h6; exact h6.elim
    | panic => rw [hb'] at h6; exact h6.elim
    | failure es' =>
      rw [hb'] at h6
      obtain ⟨a, b, b', rfl, rfl, h7, h8⟩ := h6
      obtain ⟨m, rs, h9, h10, -, h11⟩ := C41_partial F ho hf (n := 4) (k := 4) (by omega) (src := src) (p := p)
        (m := afterRaw F src p o (some (p.directives.map fun d => ofDirective F.ord (withoutLostMeta d)))) rfl rfl h4 (notTooDeep_parsed hs _ _) hb'
      refine ⟨m, rs, a, b, b', ?_, h10, h11, rfl, h7, h8⟩
      rw [h3]
      simp only [stages, List.drop_succ_cons, List.drop_zero]
      rw [bindAll, if_neg (by simp [afterRaw]), h9]
      simp only [bindAll, h10, Option.isSome_some, if_true]

/-- The toy library has such dates. -/
theorem Toy.lib_dates : DatesExist Toy.lib := by
  intro date ps t inv bk r hd hps hr i hi lots hl l hl'
  simp only [Toy.lib, Toy.bookAll] at hr
  split at hr
  · cases hr
    simp only [List.mem_map] at hi
    obtain ⟨p, hp, rfl⟩ := hi
    simp only [Toy.interpolate, Option.mem_def, Option.map_eq_some_iff] at hl
    obtain ⟨cs, hcs, rfl⟩ := hl
    unfold Toy.lots at hl'
    split at hl'
    · simp only [List.mem_singleton] at hl'
      subst hl'
      cases hx : cs.date with
      | none => exact hd
      | some x => exact hps p hp cs hcs x hx
    · simp only [List.mem_cons, List.not_mem_nil, or_false] at hl'
      rcases hl' with rfl | rfl <;> exact hd
  · cases hr

namespace Ex

/-- An account, and a balance of it with an integer tolerance. -/
def tolerant : List Raw.Directive :=
  [Toy.mkOpen 1 current, { date := Toy.day 5, variant := .balance { acc := current, units := ⟨0, 0⟩, cur := nzd, tolerance := some ⟨1, 0⟩ } }]

/-- The dates of the directives which were loaded, if there was no error. -/
def loadedDates (F : Front Toy.ext Toy.lib) (s : Server Toy.ext) : Option (List Data) := match loadBeanfile F s with
  | .ok m => if m.error.isSome then none else m.directives.map fun l => l.map fun d => d.get (str% "date")
  | .error _ => none

end Ex

/-- C59 is false: the ledger is loaded without plugins; with a plugin which passes on all directives it is not. -/
theorem C59_false : ((Ex.loadedDates Ex.strictFront (Toy.server Ex.tolerant)).map List.length = some 2) ∧
    (Ex.loadedDates Ex.strictFront (Ex.withPlugin Ex.tolerant)).isNone = true ∧ Passing Ex.passing := by
  refine ⟨by decide +kernel, by decide +kernel, fun l => rfl, fun l => rfl⟩

/-- The same with a tolerance which has decimals. -/
def Ex.patient : List Raw.Directive :=
  [Toy.mkOpen 1 Ex.current, { date := Toy.day 5, variant := .balance { acc := Ex.current, units := ⟨0, 0⟩, cur := Ex.nzd, tolerance := some ⟨10, 1⟩ } }]

/-- Non-vacuity of `C59_partial`: a ledger with a plugin which meets all hypotheses. -/
example : Blind Toy.lib ∧ DatesExist Toy.lib ∧ IsMapOrder Ex.strictFront.ordm ∧ IsOrder Ex.strictFront.ord ∧ (∀ l o, Ex.strictFront.registry l o ≠ none) ∧
    (∀ k m, (Ex.strictFront.orders k m).Perm m) ∧ Ex.strictFront.valid = validDct ∧
    (∀ d ∈ Ex.patient, DirectiveOk d ∧ DatesOk d ∧ NumbersFit (withoutLostMeta d)) ∧
    PassingPlugins Ex.strictFront { directives := Ex.patient, options := Toy.options, plugins := [(str% "passing", none)] } ∧
    OptionsOk Toy.options ∧
    (∃ out w, book Toy.lib (Ex.strictFront.orders 4) (Server.bookOptions Toy.options) Ex.patient = .success out w ∧ out.length = 2) ∧
    (Ex.loadedDates Ex.strictFront (Ex.withPlugin Ex.patient)).map List.length = some 2 := by
  have hday : ∀ n, n = 1 ∨ n = 5 → CalendarDate (Toy.day n) := by
    rintro n (rfl | rfl) <;> exact Wire.validDate_iff.1 (by decide +kernel)
  have hcur : PlainName Ex.current := Wire.borrowable_iff.1 (by decide +kernel)
  have hnzd : PlainName Ex.nzd := Wire.borrowable_iff.1 (by decide +kernel)
  refine ⟨Toy.lib_blind, Toy.lib_dates, fun l => .refl l, fun l => .refl l, fun l o h => ?_, fun k m => .refl m, rfl, ?_, ?_, ?_, ?_, by decide +kernel⟩
  · cases h
  · intro d hd
    simp only [Ex.patient, List.mem_cons, List.not_mem_nil, or_false] at hd
    rcases hd with rfl | rfl
    · refine ⟨⟨hday 1 (by simp), ⟨by simp [Toy.mkOpen], by simp [Toy.mkOpen], by simp [Toy.mkOpen]⟩, ?_⟩,
        ⟨hday 1 (by simp), by simp [Toy.mkOpen, MetadataOk], trivial⟩, ?_⟩
      · exact ⟨hcur, by simp⟩
      · simp [NumbersFit, withoutLostMeta, withoutLost, Toy.mkOpen, metadataNumbers, variantNumbers, toleranceOf]
    · refine ⟨⟨hday 5 (by simp), ⟨by simp, by simp, by simp⟩, hcur, hnzd⟩, ⟨hday 5 (by simp), by simp [MetadataOk], trivial⟩, ?_⟩
      simp [NumbersFit, withoutLostMeta, withoutLost, metadataNumbers, variantNumbers, toleranceOf, FitsLong]
  · intro q _ o
    refine ⟨rfl, rfl, fun pl h => ?_⟩
    cases h
    exact ⟨fun l => rfl, fun l => rfl⟩
  · simp [OptionsOk, Toy.options, NoDatesEntries]
  · refine ⟨[{ idx := 0, date := Toy.day 1, variant := .opn { acc := Ex.current } },
        { idx := 1, date := Toy.day 5, variant := .balance { raw :=
          { acc := Ex.current, units := ⟨0, 0⟩, cur := Ex.nzd, tolerance := some ⟨10, 1⟩ } } }], [], by decide +kernel, rfl⟩

end Limabean
