/-
C84: a report on what a plugin made or changed says what it is about, and by which plugins it was modified.
-/
import Verif.Props.C65

namespace Limabean

open Clj Spec

variable {E : Ext} {L : BookLib}

namespace Spec

/-- The word for a directive. -/
def kindWord : Raw.Variant → Str
  | .transaction _ => str% "transaction"
  | .price _ => str% "price"
  | .balance _ => str% "balance"
  | .opn _ => str% "open"
  | .close _ => str% "close"
  | .commodity _ => str% "commodity"
  | .pad _ => str% "pad"
  | .document _ => str% "document"
  | .note _ => str% "note"
  | .event _ => str% "event"
  | .query _ => str% "query"
  | .custom _ => str% "custom"

/-- The directive of an element, as the plugins left it. -/
def directiveOf (xs : List Data) (e : ElementIdx) : Data := (xs[e.directive]?).getD .nil

/-- The element is written in the files of the user: it, or the directive which it is part of, has a span there. -/
def InFiles (xs : List Data) (e : ElementIdx) : Prop :=
  ((directiveOf xs e).get (str% "span")).truthy = true ∨
    ∃ j, e.posting = some j ∧ ((postingAt (directiveOf xs e) j).get (str% "span")).truthy = true

/-- The plugins which made or changed the directive are recorded. -/
def Changed (xs : List Data) (e : ElementIdx) : Prop := ((directiveOf xs e).get (str% "provenance")).truthy = true

/-- What an element is called: a posting is a posting, a directive is called by its kind. -/
def wordOf (ds : List Raw.Directive) (e : ElementIdx) : Str := match e.posting, ds[e.directive]? with
  | some _, _ => str% "posting"
  | none, some d => kindWord d.variant
  | none, none => []

/-- The description of an element: what it is called; if it is written in the files of the user and plugins have changed it, then the
plugins, too. -/
structure Describes (txt : Data → Str) (ds : List Raw.Directive) (xs : List Data) (e : ElementIdx) (s : Str) : Prop where
  plain : ¬ (InFiles xs e ∧ Changed xs e) → s = wordOf ds e
  changed : InFiles xs e → Changed xs e → s = wordOf ds e ++ str% ", modified by " ++
    (str% " ").intercalate (((directiveOf xs e).get (str% "provenance")).elems.map (strOf txt))

/-- The same place, or both are none. -/
def SamePlace (x y : Data) : Prop := x = y ∨ (x.truthy = false ∧ y.truthy = false)

/-- What the user is told about an error besides what `Reports` says: what it is about, the transaction of a posting, and what the related
elements are. -/
structure Explains (txt : Data → Str) (ds : List Raw.Directive) (xs : List Data) (r : IndexedReport) (c : Data) : Prop where
  message : ∃ s, Describes txt ds xs r.idx s ∧ c.get (str% "message") = .str (str% "invalid " ++ s)
  noContext : r.idx.posting = none → c.get (str% "context") = .nil
  context : r.idx.posting ≠ none → ∃ x, c.get (str% "context") = .vec [.str (str% "txn"), x] ∧
    SamePlace x (locationOf xs { directive := r.idx.directive })
  related : List.Forall₂ (fun e x => ∃ s, Describes txt ds xs e s ∧ x = .vec [.str s, locationOf xs e]) (r.related.getD [])
    (c.get (str% "related")).elems

/-- Directives as the specifications of the front end want them: the kind is a keyword, postings are in no set. -/
def Usual (x : Data) : Prop := (∃ k, x.get (str% "dct") = .kw k) ∧ ∀ l, x.get (str% "postings") ≠ .set l

end Spec

namespace Clj

theorem intercalate_cons (s a : Str) {l : List Str} (h : l ≠ []) : s.intercalate (a :: l) = a ++ s ++ s.intercalate l := by
  cases l with
  | nil => exact absurd rfl h
  | cons b l => simp [List.intercalate, List.intersperse]

theorem joinSpace_eq (txt : Data → Str) : ∀ l : List Data, joinSpace txt l = (str% " ").intercalate (l.map (strOf txt))
  | [] => rfl
  | [x] => by simp [joinSpace, List.intercalate]
  | x :: y :: l => by
    rw [joinSpace, joinSpace_eq txt (y :: l), List.map_cons, List.map_cons, intercalate_cons _ (strOf txt x) (by simp)]
    · simp
    · simp

/-- The tag of a directive as the server reads it is that of its kind. -/
theorem decVariant_word {l : List (Str × Json)} {v : Raw.Variant} (h : Wire.decVariant l = some v) :
    ∃ s, Json.req l (str% "dct") Json.toStr = some s ∧ (if s = str% "txn" then str% "transaction" else s) = kindWord v := by
  unfold Wire.decVariant at h
  split at h
  · cases h
  · rename_i s hs
    refine ⟨s, hs, ?_⟩
    iterate 12
      rcases ite_eq_iff.1 h with ⟨hc, g⟩ | ⟨-, h'⟩
      · simp only [Option.bind_eq_bind, Option.bind_eq_some_iff, Option.pure_def, Option.some.injEq] at g
        repeat (obtain ⟨_, _, g⟩ := g)
        rw [hc]
        rfl
      clear h
      rename' h' => h
    cases h

/-- The postings of a transaction which the server understands. -/
theorem decVariant_postings {l : List (Str × Json)} {t : Raw.Transaction} (h : Wire.decVariant l = some (.transaction t)) :
    Json.req l (str% "postings") (Json.toList Wire.decPosting) = some t.postings := by
  unfold Wire.decVariant at h
  split at h
  · cases h
  · iterate 12
      rcases ite_eq_iff.1 h with ⟨-, g⟩ | ⟨-, h'⟩
      · simp only [Option.bind_eq_bind, Option.bind_eq_some_iff, Option.pure_def, Option.some.injEq] at g
        repeat (obtain ⟨_, _, g⟩ := g)
        try assumption
      clear h
      rename' h' => h
    cases h

/-- A field which the server reads is an entry of the map. -/
theorem req_get {ordm : List (Str × Json) → List (Str × Json)} (ho : IsMapOrder ordm) {l : List (Str × Data)} {k : Str} {α : Type}
    {f : Json → Option α} {v : α} (h : Json.req (ordm (l.map fun p => (p.1, toJson ordm p.2))) k f = some v) :
    ∃ w, AMap.get l k = some w ∧ f (toJson ordm w) = some v := by
  have hp := ho (l.map fun p => (p.1, toJson ordm p.2))
  generalize ordm (l.map fun p => (p.1, toJson ordm p.2)) = l' at h hp
  unfold Json.req at h
  split at h
  · rename_i j hj
    unfold Json.field at hj
    split at hj
    · cases hj
    · rename_i y hy
      cases hj
      have h1 : (Json.vals k (l.map fun p => (p.1, toJson ordm p.2))).Perm [j] := by
        rw [← hy]
        exact (hp.filterMap _).symm
      rw [List.perm_singleton] at h1
      obtain ⟨w, h2, h3⟩ := vals_get h1
      exact ⟨w, h2, by rw [h3]; exact h⟩
    · cases hj
  · cases h

/-- What is known about a directive which the server understands. -/
theorem understood_usual {ordm : List (Str × Json) → List (Str × Json)} (ho : IsMapOrder ordm) {x : Data} {d : Raw.Directive}
    (hu : Usual x) (h : Wire.decDirective (toJson ordm x) = some d) : dctName x = some (kindWord d.variant) ∧
      ∀ t, d.variant = .transaction t → ∃ l, x.get (str% "postings") = .vec l ∧ l.length = t.postings.length ∧ ∀ p ∈ l, p.truthy = true := by
  obtain ⟨⟨w, hw⟩, hs⟩ := hu
  cases x with
  | map l =>
    simp only [toJson, entriesToJson_eq] at h
    simp only [Wire.decDirective, Option.bind_eq_bind, Option.bind_eq_some_iff] at h
    obtain ⟨_, _, _, _, _, _, _, _, _, _, v, hv, hd⟩ := h
    simp only [Option.pure_def, Option.some.injEq] at hd
    subst hd
    constructor
    · obtain ⟨s, h1, h2⟩ := decVariant_word hv
      obtain ⟨y, h3, h4⟩ := req_get ho h1
      simp only [Data.get, h3, Option.getD_some] at hw
      subst hw
      simp only [toJson, Json.toStr, Option.some.injEq] at h4
      subst h4
      simp only [dctName, Data.get, h3, Option.getD_some]
      exact congrArg some h2
    · rintro t rfl
      obtain ⟨y, h3, h4⟩ := req_get ho (decVariant_postings hv)
      simp only [Data.get, h3, Option.getD_some] at hs
      cases y with
      | set l => exact absurd rfl (hs l)
      | vec l =>
        refine ⟨l, by simp only [Data.get, h3, Option.getD_some], ?_⟩
        simp only [toJson, Json.toList, toJsons_eq] at h4
        have h5 := all_forall₂ h4
        refine ⟨by simpa using h5.length_eq, fun p hp => ?_⟩
        obtain ⟨i, hi, rfl⟩ := List.mem_iff_getElem.1 hp
        have h6 := (List.forall₂_iff_get.1 h5).2 i (by simpa using hi) (by simpa [← h5.length_eq] using hi)
        simp only [List.get_eq_getElem, List.getElem_map] at h6
        cases hq : l[i] with
        | map => rfl
        | _ => simp [hq, toJson, Wire.decPosting] at h6
      | _ => simp [toJson, Json.toList] at h4
  | _ => simp [toJson, Wire.decDirective] at h

theorem describe_eq (txt : Data → Str) {dct pst : Data} {w : Str} (h : dctName dct = some w) : describe txt dct pst = some (.str
    ((if pst.truthy then str% "posting" else w) ++
      if (dct.get (str% "provenance")).truthy && ((pst.get (str% "span")).or (dct.get (str% "span"))).truthy then
        str% ", modified by " ++ (str% " ").intercalate ((dct.get (str% "provenance")).elems.map (strOf txt)) else [])) := by
  have ht : dct.truthy = true := by
    cases dct with
    | map l => rfl
    | _ => simp [dctName, Data.get] at h
  unfold describe
  rw [ht, h, joinSpace_eq]
  simp only [if_true, Option.map_some]
  cases pst.truthy <;> cases (dct.get (str% "provenance")).truthy &&
    ((pst.get (str% "span")).or (dct.get (str% "span"))).truthy <;> simp [strOf]

/-- The directives which plugins left, and what the server reads. -/
def Read (ordm : List (Str × Json) → List (Str × Json)) (x : Data) (d : Raw.Directive) : Prop :=
  Usual x ∧ Wire.decDirective (toJson ordm x) = some d

theorem truthy_or (a b : Data) : (a.or b).truthy = (a.truthy || b.truthy) := by
  unfold Data.or
  cases h : a.truthy <;> simp [h]

theorem explain {ordm : List (Str × Json) → List (Str × Json)} (ho : IsMapOrder ordm) (txt : Data → Str) {ds : List Raw.Directive}
    {xs : List Data} (hr : List.Forall₂ (Read ordm) xs ds) {e : ElementIdx} (h : LocOk ds e) :
    ∃ l s, resolveReportIdx txt (ofElement e) (.vec xs) = some l ∧ l.description = .str s ∧ Describes txt ds xs e s ∧
      l.span = locationOf xs e ∧ (e.posting = none → l.context = .nil) ∧ (e.posting ≠ none →
        ∃ x, l.context = .vec [.str (str% "txn"), x] ∧ SamePlace x (locationOf xs { directive := e.directive })) := by
  obtain ⟨i, j⟩ := e
  obtain ⟨h1, h2⟩ := h
  simp only at h1 h2
  have hi : i < xs.length := by rw [hr.length_eq]; exact h1
  obtain ⟨hu, hd⟩ := (List.forall₂_iff_get.1 hr).2 i hi h1
  simp only [List.get_eq_getElem] at hu hd
  obtain ⟨hw, hp⟩ := understood_usual ho hu hd
  have hx : xs[i]? = some xs[i] := List.getElem?_eq_getElem hi
  have hds : ds[i]? = some ds[i] := List.getElem?_eq_getElem h1
  have hdct : (Data.vec xs).nth (ofNat i) = xs[i] := by
    rw [nth_pick, pick_nat, hx]
    rfl
  have hspan : ∀ x : Data, SamePlace (spanOf x) (firstOf [x.get (str% "span"), x.get (str% "span-p")]) := by
    intro x
    unfold SamePlace spanOf Data.or firstOf
    simp only [List.find?_cons, List.find?_nil]
    cases ha : (x.get (str% "span")).truthy <;> cases hb : (x.get (str% "span-p")).truthy <;> simp_all [Data.truthy]
  unfold resolveReportIdx
  simp only [ofElement, nth_zero, hdct]
  cases j with
  | none =>
    have hq : ((xs[i]).get (str% "postings")).nth ((Data.vec [ofNat i]).nth (.num ⟨1, 0⟩)) = .nil := by
      rw [nth_pick]
      have : (Data.vec [ofNat i]).nth (.num ⟨1, 0⟩) = .nil := by simp [Data.nth]
      rw [this]
      unfold pick
      split <;> rfl
    have hnil : Data.nil.truthy = false := rfl
    simp only [hq, describe_eq txt hw, Option.map_some, hnil, Bool.false_eq_true, if_false]
    refine ⟨_, _, rfl, rfl, ⟨fun hc => ?_, fun hf hc => ?_⟩, ?_, fun _ => rfl, fun h => absurd rfl h⟩
    · rw [if_neg, List.append_nil]
      · simp only [wordOf, hds]
      · intro hc'
        rw [Bool.and_eq_true] at hc'
        refine hc ⟨.inl ?_, ?_⟩
        · simpa [directiveOf, hx, Data.get, Data.or, Data.truthy] using hc'.2
        · simpa [Changed, directiveOf, hx] using hc'.1
    · rw [if_pos]
      · simp only [wordOf, hds, directiveOf, hx, List.append_assoc, Option.getD_some]
      · rw [Bool.and_eq_true]
        refine ⟨by simpa [Changed, directiveOf, hx] using hc, ?_⟩
        rcases hf with hf | ⟨j, hj, -⟩
        · simpa [directiveOf, hx, Data.get, Data.or, Data.truthy] using hf
        · cases hj
    · simp only [locationOf, hx, Option.getD_some, List.nil_append]
      exact first_four .nil .nil _ _
  | some j =>
    obtain ⟨d, t, g1, g2, g3⟩ := h2 j rfl
    rw [hds] at g1
    cases g1
    obtain ⟨l, k1, k2, k3⟩ := hp t g2
    rw [← k2] at g3
    have hq : ((xs[i]).get (str% "postings")).nth ((Data.vec [ofNat i, ofNat j]).nth (.num ⟨1, 0⟩)) = l[j] := by
      have : (Data.vec [ofNat i, ofNat j]).nth (.num ⟨1, 0⟩) = ofNat j := by simp [Data.nth]
      rw [this, k1, nth_pick, pick_nat, List.getElem?_eq_getElem g3]
      rfl
    have hpa : postingAt xs[i] j = l[j] := by
      simp only [postingAt, k1, List.getElem?_eq_getElem g3, Option.getD_some]
    have ht := k3 l[j] (List.getElem_mem g3)
    simp only [hq, describe_eq txt hw, Option.map_some, ht, if_true]
    refine ⟨_, _, rfl, rfl, ⟨fun hc => ?_, fun hf hc => ?_⟩, ?_, by simp, fun _ => ⟨_, rfl, ?_⟩⟩
    · rw [if_neg, List.append_nil]
      · rfl
      · intro hc'
        rw [Bool.and_eq_true, truthy_or, Bool.or_eq_true] at hc'
        refine hc ⟨?_, ?_⟩
        · rcases hc'.2 with g | g
          · exact .inr ⟨j, rfl, by simpa [directiveOf, hx, hpa] using g⟩
          · exact .inl (by simpa [directiveOf, hx] using g)
        · simpa [Changed, directiveOf, hx] using hc'.1
    · rw [if_pos]
      · simp only [wordOf, directiveOf, hx, List.append_assoc, Option.getD_some]
      · rw [Bool.and_eq_true, truthy_or, Bool.or_eq_true]
        refine ⟨by simpa [Changed, directiveOf, hx] using hc, ?_⟩
        rcases hf with hf | ⟨j', hj, hf⟩
        · exact .inr (by simpa [directiveOf, hx] using hf)
        · cases hj
          exact .inl (by simpa [directiveOf, hx, hpa] using hf)
    · simp only [locationOf, hx, Option.getD_some, List.cons_append, List.nil_append, hpa]
      exact first_four _ _ _ _
    · simp only [locationOf, hx, Option.getD_some, List.nil_append]
      exact hspan _

theorem explain_related {ordm : List (Str × Json) → List (Str × Json)} (ho : IsMapOrder ordm) (txt : Data → Str) {ds : List Raw.Directive}
    {xs : List Data} (hr : List.Forall₂ (Read ordm) xs ds) {es : List ElementIdx} (h : ∀ e ∈ es, LocOk ds e) :
    ∃ ls, Json.all (resolveReportRelated txt (.vec xs)) (es.map ofElement) = some ls ∧
      List.Forall₂ (fun e x => ∃ s, Describes txt ds xs e s ∧ x = .vec [.str s, locationOf xs e]) es ls := by
  induction es with
  | nil => exact ⟨[], rfl, .nil⟩
  | cons e es ih =>
    obtain ⟨ls, h1, h2⟩ := ih fun e he => h e (by simp [he])
    obtain ⟨l, s, h3, h4, h5, h6, -⟩ := explain ho txt hr (h e (by simp))
    refine ⟨.vec [l.description, l.span] :: ls, ?_, .cons ⟨s, h5, by rw [h4, h6]⟩ h2⟩
    simp [Json.all, resolveReportRelated, h3, h1]

theorem explains_one {ordm : List (Str × Json) → List (Str × Json)} (ho : IsMapOrder ordm) (txt : Data → Str) {ds : List Raw.Directive}
    {xs : List Data} (hr : List.Forall₂ (Read ordm) xs ds) {r : IndexedReport} (h : ReportOk ds r) {c : Data}
    (hc : resolveReportFromRaw txt (ofIndexed E r) (.vec xs) = some c) : Explains txt ds xs r c := by
  obtain ⟨l, s, h1, h2, h3, h4, h5, h6⟩ := explain ho txt hr h.1
  obtain ⟨ls, h7, h8⟩ := explain_related ho txt hr h.2
  have hidx : (ofIndexed E r).get (str% "idx") = ofElement r.idx := rfl
  have hrel : (ofIndexed E r).get (str% "related") = match r.related with | some l => .vec (l.map ofElement) | none => .nil := by
    simp only [ofIndexed, Data.get, get_append, get_optEntry]
    cases r.related <;> simp [AMap.get]
  have h9 : Json.all (resolveReportRelated txt (.vec xs))
      (match r.related with | some l => Data.vec (l.map ofElement) | none => .nil).elems = some ls := by
    cases hre : r.related with
    | none =>
      rw [hre] at h7
      exact h7
    | some l =>
      rw [hre] at h7
      exact h7
  simp only [resolveReportFromRaw, hidx, h1, hrel, h9, Option.bind_eq_bind, Option.bind_some, Option.pure_def, Option.some.injEq] at hc
  subst hc
  have hm0 : IsMap (.map []) := ⟨_, rfl⟩
  have hm1 := (hm0.copy (ofIndexed E r) (str% "reason")).copy (ofIndexed E r) (str% "annotation")
  have hm2 := (hm1.assoc (str% "message") (.str (str% "invalid " ++ strOf txt l.description))).assoc (str% "span") l.span
  have hm3 := hm2.assocIf l.context.truthy (str% "context") l.context
  have hctx : ∀ k, k = str% "context" ∨ k = str% "related" →
      (((copyField (ofIndexed E r) (copyField (ofIndexed E r) (.map []) (str% "reason")) (str% "annotation")).assoc (str% "message")
        (.str (str% "invalid " ++ strOf txt l.description))).assoc (str% "span") l.span).get k = .nil := by
    intro k hk
    rw [(hm1.assoc _ _).get_assoc, if_neg (by rcases hk with rfl | rfl <;> simp), hm1.get_assoc,
      if_neg (by rcases hk with rfl | rfl <;> simp), (hm0.copy _ _).get_copy, if_neg (by rcases hk with rfl | rfl <;> simp), hm0.get_copy,
      if_neg (by rcases hk with rfl | rfl <;> simp)]
    rfl
  refine ⟨⟨s, h3, ?_⟩, fun hp => ?_, fun hp => ?_, ?_⟩
  · rw [hm3.get_assocIf, if_neg (by simp), hm2.get_assocIf, if_neg (by simp), (hm1.assoc _ _).get_assoc, if_neg (by simp),
      hm1.get_assoc, if_pos rfl, h2]
    rfl
  · rw [hm3.get_assocIf, if_neg (by simp), hm2.get_assocIf, if_neg (by rw [h5 hp]; simp [Data.truthy]), hctx _ (.inl rfl)]
  · obtain ⟨x, h10, h11⟩ := h6 hp
    refine ⟨x, ?_, h11⟩
    rw [hm3.get_assocIf, if_neg (by simp), hm2.get_assocIf, if_pos ⟨rfl, by rw [h10]; rfl⟩, h10]
  · rw [hm3.get_assocIf]
    cases hre : r.related with
    | some l =>
      rw [hre] at h8
      simpa [Data.truthy, Data.elems] using h8
    | none =>
      rw [if_neg (by simp [Data.truthy]), hm2.get_assocIf, if_neg (by simp), hctx _ (.inr rfl)]
      exact .nil

theorem joined_infix {s a : Str} : ∀ {l : List Str}, a ∈ l → a <:+: s.intercalate l
  | [], h => by cases h
  | [b], h => by
    rw [List.mem_singleton.1 h]
    simp [List.intercalate]
  | b :: c :: l, h => by
    rw [intercalate_cons _ _ (by simp)]
    rcases List.mem_cons.1 h with rfl | h
    · exact ⟨[], s ++ s.intercalate (c :: l), by simp⟩
    · obtain ⟨u, v, hv⟩ := joined_infix h
      exact ⟨b ++ s ++ u, v, by rw [← hv]; simp⟩

end Clj

/-- C84: if the directives which raw plugins left are understood by the server, and booking these fails, then each report, besides the
reason and the location (C41), says what the error is about: a posting, or the kind of the directive; the transaction of a posting; the
related elements. If the element is written in the files of the user and plugins have changed its directive, then the report says which, in
their order. -/
theorem C84_told (F : Front E L) (ho : IsMapOrder F.ordm) (hf : ∀ k m, (F.orders k m).Perm m) {n k : Nat} (hn : n < 2147483647)
    {src : E.Sources} {p : Parsed} {m : LoadedBeans E} (hm : m.pod = { nextId := n, server := some (.ready src (.ok p)), served := k })
    {xs : List Data} (hx : m.rawXfDirectives = some xs) (hu : ∀ x ∈ xs, Usual x) {ds : List Raw.Directive}
    (hd : Json.all Wire.decDirective (xs.map (toJson F.ordm)) = some ds) (hs : NotTooDeep xs) {es : List IndexedReport}
    (hb : book L (F.orders k) (Server.bookOptions p.options) ds = .failure es) :
    ∃ m' rs, bookRawDirectives F m = .ok m' ∧ m'.error = some (.booking (some rs)) ∧
      List.Forall₂ (fun r c => Reports E xs r c ∧ Explains F.txt ds xs r c) es rs := by
  obtain ⟨h3, hn', hl, hr, -⟩ := booking_failed F ho hf hn hm hx hd hs hb
  have hread : List.Forall₂ (Read F.ordm) xs ds := by
    have h1 := all_forall₂ hd
    rw [List.forall₂_map_left_iff] at h1
    clear hd hb h3 hn' hl hr hx hs
    induction h1 with
    | nil => exact .nil
    | cons h _ ih => exact .cons ⟨hu _ (by simp), h⟩ (ih fun x hx => hu x (by simp [hx]))
  obtain ⟨rs, h1, h2⟩ : ∃ rs, Json.all (fun r => resolveReportFromRaw F.txt r (.vec xs)) (es.map (ofIndexed E)) = some rs ∧
      List.Forall₂ (fun r c => Reports E xs r c ∧ Explains F.txt ds xs r c) es rs := by
    clear hb h3
    induction es with
    | nil => exact ⟨[], rfl, .nil⟩
    | cons e es ih =>
      obtain ⟨rs, h1, h2⟩ := ih fun r h => hr r (by simp [h])
      obtain ⟨c, h3, h4⟩ := reports_one (E := E) F.txt hn' hl (hr e (by simp))
      exact ⟨c :: rs, by simp [Json.all, h3, h1], .cons ⟨h4, explains_one ho F.txt hread (hr e (by simp)) h3⟩ h2⟩
  rw [h1] at h3
  exact ⟨_, rs, h3, rfl, h2⟩

/-- C84: a plugin which is recorded on a directive is named in every description of that directive or its postings, if these are in the
files of the user. -/
theorem C84_named {txt : Data → Str} {ds : List Raw.Directive} {xs : List Data} {e : ElementIdx} {s name : Str}
    (h : Describes txt ds xs e s) (hf : InFiles xs e) (hn : Data.str name ∈ ((directiveOf xs e).get (str% "provenance")).elems) :
    name <:+: s := by
  have hc : Changed xs e := by
    unfold Changed
    cases hp : (directiveOf xs e).get (str% "provenance") with
    | vec l => rfl
    | set l => rfl
    | _ => rw [hp] at hn; cases hn
  rw [h.changed hf hc]
  exact (joined_infix (s := str% " ") (List.mem_map_of_mem (f := strOf txt) hn)).trans (List.suffix_append _ _).isInfix

namespace Ex

/-- A raw plugin which changes the flag of what it gets. -/
def touching : Plugin where
  name := str% "touching"
  step l := [.new (((l.getLast?).getD .nil).assoc (str% "flag") (.str (str% "!")))]
  finish _ := []

/-- A front end which finds that plugin, whatever the name. -/
def touchingFront : Front Toy.ext Toy.lib := { front with resolve := fun _ _ => (some touching, none, none) }

/-- The messages of the reports of a booking failure. -/
def bookingMessages : Option LoadError → Option (List Str)
  | some (.booking (some rs)) => some (rs.map fun r => textMessage (r.get (str% "message")))
  | _ => none
where
  textMessage : Data → Str
    | .str s => s
    | _ => []

end Ex

/-- Non-vacuity of `C84_told`: the posting is in the file, its transaction was changed by the plugin, which the ledger calls
`passing`. -/
example : Ex.bookingMessages (Ex.loadError Ex.touchingFront (Ex.withPlugin Ex.unopened)) =
    some [str% "invalid posting, modified by passing"] := by decide +kernel

/-- The same with a plugin which changes nothing. -/
example : Ex.bookingMessages (Ex.loadError Ex.passingFront (Ex.withPlugin Ex.unopened)) = some [str% "invalid posting"] := by
  decide +kernel

end Limabean
