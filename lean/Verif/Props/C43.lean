/-
C43: both report resolvers agree.

False for the context: where the server gives a report on a posting the entry `contexts` with the transaction, the client gives it an
entry `context`, which the server does not read (`C43_false`, `C43_shown`). All else agrees (`C43_partial`).
-/
import Verif.Props.C26
import Verif.Props.C42
import Verif.Proofs.DecodeLemmas
import Verif.Proofs.EncodeLemmas
import Verif.Spec.ClientReports
import Verif.Server.ToyExt

namespace Limabean

open Spec Clj

variable {E : Ext}

namespace Clj

theorem directive_dct (ord : List Data → List Data) (d : Raw.Directive) :
    dctName (ofDirective ord d) = some (Server.variantName d.variant) := by
  unfold dctName
  have : (ofDirective ord d).get (str% "dct") = ((AMap.get (ofVariant ord d.variant) (str% "dct")).getD .nil) := by
    simp [ofDirective, Data.get, get_append, get_optEntry, AMap.get]
  rw [this]
  cases d.variant <;> rfl

theorem provenance_nil {x : Data} {sp : Option Span} (h : RawLike x sp) : x.get (str% "provenance") = .nil := by
  have := h.noProvenance
  cases x with
  | map l =>
    simp only [Data.has, Option.isSome_eq_false_iff, Option.isNone_iff_eq_none] at this
    simp [Data.get, this]
  | _ => rfl

theorem spanOf_rawLike {x : Data} {s : Span} (h : RawLike x (some s)) : spanOf x = ofSpan s := by
  rw [spanOf, h.span]
  rfl

theorem nth_zero (x : Data) (l : List Data) : (Data.vec (x :: l)).nth (.num ⟨0, 0⟩) = x := by simp [Data.nth]

/-- What the client makes of a position. -/
theorem resolveReportIdx_eq (txt : Data → Str) (ord : List Data → List Data) {ds : List Raw.Directive} (ha : AllSpans ds) {e : ElementIdx}
    (hl : LocOk ds e) : ∃ k sp, Server.resolveElement e ds = some (k, sp) ∧
      (resolveReportIdx txt (ofElement e) (.vec (ds.map (ofDirective ord)))) = some
        { description := .str k, span := ofSpan sp
          context := match e.posting with
            | none => .nil
            | some _ => .vec [.str (str% "txn"), spanDatum ((ds[e.directive]?).bind (·.span))] } := by
  obtain ⟨i, j⟩ := e
  obtain ⟨h1, h2⟩ := hl
  have hd : ds[i]? = some ds[i] := List.getElem?_eq_getElem h1
  obtain ⟨hs, hps⟩ := ha ds[i] (List.getElem_mem h1)
  obtain ⟨s, hs⟩ := Option.isSome_iff_exists.1 hs
  have hraw := directive_rawLike ord ds[i]
  rw [hs] at hraw
  unfold resolveReportIdx
  simp only [ofElement, nth_zero]
  have hdct : (Data.vec (ds.map (ofDirective ord))).nth (ofNat i) = ofDirective ord ds[i] := by
    rw [nth_pick, pick_nat, List.getElem?_map, hd]
    rfl
  simp only [hdct, hd, Option.bind_some, spanOf_rawLike hraw]
  cases j with
  | none =>
    have hp : ((ofDirective ord ds[i]).get (str% "postings")).nth ((Data.vec [ofNat i]).nth (.num ⟨1, 0⟩)) = .nil := by
      rw [nth_pick]
      have : (Data.vec [ofNat i]).nth (.num ⟨1, 0⟩) = .nil := by simp [Data.nth]
      rw [this]
      unfold pick
      split <;> rfl
    simp only [hp]
    refine ⟨Server.variantName ds[i].variant, s, ?_, ?_⟩
    · simp only [Server.resolveElement, hd, hs]
      cases hv : ds[i].variant <;> rfl
    · have : describe txt (ofDirective ord ds[i]) .nil = some (.str (Server.variantName ds[i].variant)) := by
        unfold describe
        rw [directive_dct, provenance_nil hraw]
        rfl
      rw [this]
      rfl
  | some j =>
    obtain ⟨d, t, g1, g2, g3⟩ := h2 j rfl
    simp only at g1
    rw [hd] at g1
    cases g1
    have hq : t.postings[j]? = some t.postings[j] := List.getElem?_eq_getElem g3
    obtain ⟨s', hs'⟩ := Option.isSome_iff_exists.1 (hps t g2 _ (List.getElem_mem g3))
    have hpraw := posting_rawLike ord t.postings[j]
    rw [hs'] at hpraw
    have hp : ((ofDirective ord ds[i]).get (str% "postings")).nth ((Data.vec [ofNat i, ofNat j]).nth (.num ⟨1, 0⟩)) =
        ofPosting ord t.postings[j] := by
      have : (Data.vec [ofNat i, ofNat j]).nth (.num ⟨1, 0⟩) = ofNat j := by simp [Data.nth]
      rw [this, directive_postings, g2, nth_pick, pick_nat, List.getElem?_map, hq]
      rfl
    simp only [hp]
    refine ⟨str% "posting", s', ?_, ?_⟩
    · simp only [Server.resolveElement, hd, g2, hq, hs']
    · have : describe txt (ofDirective ord ds[i]) (ofPosting ord t.postings[j]) = some (.str (str% "posting")) := by
        unfold describe
        rw [provenance_nil hraw]
        rfl
      rw [this, spanOf_rawLike hpraw, hs]
      rfl

/-- The client's report, as a list of entries. -/
def clientReport (r : Report) : Data :=
  .map ([(str% "reason", .str r.reason)] ++ optEntry (str% "annotation") r.annotation .str ++
    [(str% "message", .str r.message), (str% "span", ofSpan r.span)] ++
    optEntry (str% "context") ((r.contexts.bind List.head?).map Prod.snd) (fun s => .vec [.str (str% "txn"), ofSpan s]) ++
    optEntry (str% "related") r.related (fun l => .vec (l.map ofLabelled)))

theorem resolveRelated_eq (txt : Data → Str) (ord : List Data → List Data) {ds : List Raw.Directive} (ha : AllSpans ds)
    {l : List ElementIdx} (hl : ∀ e ∈ l, LocOk ds e) : ∃ ls, Json.all (fun i => Server.resolveElement i ds) l = some ls ∧
      Json.all (resolveReportRelated txt (.vec (ds.map (ofDirective ord)))) (l.map ofElement) = some (ls.map ofLabelled) := by
  induction l with
  | nil => exact ⟨[], rfl, rfl⟩
  | cons e l ih =>
    obtain ⟨ls, h1, h2⟩ := ih fun e he => hl e (by simp [he])
    obtain ⟨k, sp, h3, h4⟩ := resolveReportIdx_eq txt ord ha (hl e (by simp))
    refine ⟨(k, sp) :: ls, by simp [Json.all, h1, h3], ?_⟩
    simp only [List.map_cons, Json.all, h2, resolveReportRelated, h4, Option.map_some]
    rfl

theorem resolveReport_eq (txt : Data → Str) (ord : List Data → List Data) {ds : List Raw.Directive} (ha : AllSpans ds)
    {r : IndexedReport} (hr : ReportOk ds r) : ∃ rep, Server.resolveReport E ds r = some rep ∧
      resolveReportFromRaw txt (ofIndexed E r) (.vec (ds.map (ofDirective ord))) = some (clientReport rep) := by
  obtain ⟨k, sp, h1, h2⟩ := resolveReportIdx_eq txt ord ha hr.1
  obtain ⟨k', sp', h3, -⟩ := resolveReportIdx_eq txt ord ha (LocOk.plain (ds := ds) (e := { directive := r.idx.directive }) ⟨rfl, hr.1.1⟩)
  have hs : (ds[r.idx.directive]?).bind (·.span) = some sp' := by
    simp only [Server.resolveElement] at h3
    cases hd : ds[r.idx.directive]? with
    | none => rw [hd] at h3; cases h3
    | some d =>
      rw [hd] at h3
      cases hsp : d.span with
      | none => cases hv : d.variant <;> simp [hv, hsp] at h3
      | some s => cases hv : d.variant <;> simp [hv, hsp] at h3 <;> simp [h3.2, hsp]
  have hidx : (ofIndexed E r).get (str% "idx") = ofElement r.idx := rfl
  have hrel : (ofIndexed E r).get (str% "related") = match r.related with | some l => .vec (l.map ofElement) | none => .nil := by
    simp only [ofIndexed, Data.get, get_append, get_optEntry]
    cases r.related <;> simp [AMap.get]
  obtain ⟨ls, h4, h5⟩ := resolveRelated_eq txt ord ha (l := r.related.getD []) hr.2
  have hcopy : copyField (ofIndexed E r) (copyField (ofIndexed E r) (.map []) (str% "reason")) (str% "annotation") =
      .map ([(str% "reason", .str (E.reasonText r.reason))] ++ optEntry (str% "annotation") (r.annotation.map E.rowsText) .str) := by
    obtain ⟨reason, idx, related, annotation⟩ := r
    cases related <;> cases annotation <;> rfl
  refine ⟨{ message := str% "invalid " ++ k, reason := E.reasonText r.reason, span := sp
            contexts := match r.idx.posting with | none => none | some _ => some [(k', sp')]
            related := r.related.map fun _ => ls
            annotation := r.annotation.map E.rowsText }, ?_, ?_⟩
  · simp only [Server.resolveReport, h1, Server.resolveContexts, Server.resolveRelated]
    cases hp : r.idx.posting <;> cases hre : r.related <;> simp_all
  · simp only [resolveReportFromRaw, hidx, h2, hcopy, Option.bind_eq_bind, Option.bind_some, hrel]
    have : Json.all (resolveReportRelated txt (.vec (ds.map (ofDirective ord))))
        (match r.related with | some l => Data.vec (l.map ofElement) | none => .nil).elems = some (ls.map ofLabelled) := by
      cases hre : r.related with
      | none =>
        rw [hre] at h5
        exact h5
      | some l =>
        rw [hre] at h5
        exact h5
    rw [this]
    simp only [hs, Option.bind_some]
    obtain ⟨reason, ⟨i, j⟩, related, annotation⟩ := r
    cases j <;> cases related <;> cases annotation <;> rfl

end Clj

/-- The fields on which both resolvers agree. -/
def Spec.agreedFields : List Str := [str% "message", str% "reason", str% "span", str% "related", str% "annotation"]

/-- C43, without the context: resolving a report with positions in the client gives the same message, reason, span, related locations
and annotation as resolving it in the server. Missing: the context, for which it is false (`C43_false`). -/
theorem C43_partial (txt : Data → Str) (ord : List Data → List Data) {ds : List Raw.Directive} (ha : AllSpans ds) {r : IndexedReport}
    (hr : ReportOk ds r) : ∃ rep c, Server.resolveReport E ds r = some rep ∧
      resolveReportFromRaw txt (ofIndexed E r) (.vec (ds.map (ofDirective ord))) = some c ∧
      ∀ k ∈ agreedFields, c.get k = (ofReport rep).get k := by
  obtain ⟨rep, h1, h2⟩ := resolveReport_eq (E := E) txt ord ha hr
  refine ⟨rep, _, h1, h2, fun k hk => ?_⟩
  obtain ⟨message, reason, span, contexts, related, annotation⟩ := rep
  simp only [agreedFields, List.mem_cons, List.not_mem_nil, or_false] at hk
  rcases hk with rfl | rfl | rfl | rfl | rfl <;>
    simp [clientReport, ofReport, Data.get, get_append, get_optEntry, AMap.get]

namespace Clj

theorem toJson_span (ordm : List (Str × Json) → List (Str × Json)) (s : Span) : toJson ordm (ofSpan s) = Wire.encSpan s := by
  simp [ofSpan, ofNat, toJson, toJsons, Wire.encSpan, Json.nat]

theorem toJson_labelled (ordm : List (Str × Json) → List (Str × Json)) (x : Str × Span) :
    toJson ordm (ofLabelled x) = Wire.encLabelled x := by
  rw [ofLabelled, toJson, toJsons, toJsons, toJsons, toJson_span, toJson]
  rfl

theorem toJson_optEntry {α : Type} (ordm : List (Str × Json) → List (Str × Json)) (k : Str) (x : Option α) (f : α → Data) :
    (optEntry k x f).map (fun p => (p.1, toJson ordm p.2)) = Json.entry k x (fun a => toJson ordm (f a)) := by
  cases x <;> rfl

theorem decLabelled_encLabelled (x : Str × Span) : Wire.decLabelled (Wire.encLabelled x) = some x := by
  simp [Wire.decLabelled, Wire.encLabelled, Json.toStr, Wire.decSpan_encSpan]

theorem toList_labelled (l : List (Str × Span)) : Json.toList Wire.decLabelled (.arr (l.map Wire.encLabelled)) = some l :=
  Wire.all_map _ _ _ fun x _ => decLabelled_encLabelled x

theorem decReport_perm {l l' : List (Str × Json)} (h : (l.map Prod.fst).Nodup) (hp : l'.Perm l) :
    Wire.decReport (.obj l') = Wire.decReport (.obj l) := by
  simp only [Wire.decReport, Json.req, Json.opt, field_perm h hp]

end Clj

/-- What the server understands of the client's report when it is asked to show it: the report as the server itself would have resolved
it, without its context. -/
theorem C43_shown (txt : Data → Str) (ord : List Data → List Data) {ordm : List (Str × Json) → List (Str × Json)} (ho : IsMapOrder ordm)
    {ds : List Raw.Directive} (ha : AllSpans ds) {r : IndexedReport} (hr : ReportOk ds r) :
    ∃ rep c, Server.resolveReport E ds r = some rep ∧
      resolveReportFromRaw txt (ofIndexed E r) (.vec (ds.map (ofDirective ord))) = some c ∧
      Wire.decReport (toJson ordm c) = some { rep with contexts := none } := by
  obtain ⟨rep, h1, h2⟩ := resolveReport_eq (E := E) txt ord ha hr
  refine ⟨rep, _, h1, h2, ?_⟩
  obtain ⟨message, reason, span, contexts, related, annotation⟩ := rep
  simp only [clientReport, toJson, entriesToJson_eq]
  rw [decReport_perm ?_ (ho _)]
  · simp only [List.map_append, toJson_optEntry, List.map_cons, List.map_nil, toJson, toJson_span, toJsons_eq, List.map_map,
      Function.comp_def, toJson_labelled]
    generalize (contexts.bind List.head?).map Prod.snd = ctx
    have hrel : ∀ l : List (Str × Span), Json.toList Wire.decLabelled (.arr (l.map fun x => Wire.encLabelled x)) = some l := toList_labelled
    cases annotation <;> cases ctx <;> cases related <;>
      simp [Wire.decReport, Json.req, Json.opt, Json.field, Json.vals, Json.entry, Json.toStr, Wire.decSpan_encSpan, hrel]
  · simp only [List.map_map, List.map_append]
    generalize (contexts.bind List.head?).map Prod.snd = ctx
    cases annotation <;> cases ctx <;> cases related <;> simp [optEntry]

/-- A ledger whose transaction posts to an account which is not open. -/
def Ex.unopened : List Raw.Directive :=
  [{ span := some ⟨0, 0, 50⟩, date := Toy.day 1, variant := .transaction { flag := str% "*", postings :=
    [{ span := some ⟨0, 20, 40⟩, acc := Ex.bank, units := some ⟨1, 0⟩, cur := some Ex.nzd }] } }]

/-- The report on the posting. -/
def Ex.unopenedReport : IndexedReport := { reason := .accountNotOpen, idx := { directive := 0, posting := some 0 } }

theorem Ex.unopened_ok : AllSpans Ex.unopened ∧ ReportOk Ex.unopened Ex.unopenedReport := by
  constructor
  · intro d hd
    simp only [Ex.unopened, List.mem_cons, List.not_mem_nil, or_false] at hd
    subst hd
    refine ⟨rfl, ?_⟩
    rintro t ⟨⟩ p hp
    simp only [List.mem_cons, List.not_mem_nil, or_false] at hp
    subst hp
    rfl
  · refine ⟨⟨by decide, ?_⟩, by simp [Ex.unopenedReport]⟩
    rintro i ⟨⟩
    exact ⟨_, _, rfl, rfl, by decide⟩

/-- C43 is false: the server resolves this report with its transaction as context, the client without `contexts`. -/
theorem C43_false : AllSpans Ex.unopened ∧ ReportOk Ex.unopened Ex.unopenedReport ∧
    (Server.resolveReport Toy.ext Ex.unopened Ex.unopenedReport).map (·.contexts) =
      some (some [(str% "transaction", ⟨0, 0, 50⟩)]) ∧
    (resolveReportFromRaw (fun _ => []) (ofIndexed Toy.ext Ex.unopenedReport) (.vec (Ex.unopened.map (ofDirective id)))).map
      (fun c => (c.get (str% "contexts"), c.get (str% "context"))) =
        some (.nil, .vec [.str (str% "txn"), ofSpan ⟨0, 0, 50⟩]) := ⟨Ex.unopened_ok.1, Ex.unopened_ok.2, rfl, rfl⟩

end Limabean
