/-
C65: errors are shown in full.

Every error of the parser is shown (`C65_parser`), every plugin which cannot be found is named (`C65_plugins`), and so is every booking
error if there is a raw plugin (`C65_booking_partial`, `C65_loaded_partial`). False without raw plugins: the user reads that booking has
failed, and nothing else (`C65_false`).
-/
import Verif.Props.C50
import Verif.Props.C59

namespace Limabean

open Clj Spec

variable {E : Ext} {L : BookLib}

namespace Spec

/-- The text shows the reports one after the other, separated by line breaks: each is what the parser's library writes, followed by the
annotation on lines of its own, if there is one. -/
def Shows (E : Ext) (src : E.Sources) (reps : List Report) (t : Str) : Prop :=
  ∃ texts : List Str, t = (texts.intersperse ['\n']).flatten ∧
    List.Forall₂ (fun rep x => ∃ body, E.writeReport src true rep = some body ∧
      x = body ++ match rep.annotation with | some a => a ++ ['\n'] | none => []) reps texts

/-- The report says what the parser says. -/
structure OfParser (e : ParserError) (rep : Report) : Prop where
  message : rep.message = e.message
  reason : rep.reason = e.reason
  span : rep.span = e.span
  contexts : rep.contexts.getD [] = e.contexts
  related : rep.related.getD [] = e.related
  annotation : rep.annotation = none

/-- The report says what booking says, at the places of the elements among the directives which were sent. -/
structure Told (E : Ext) (xs : List Data) (i : IndexedReport) (rep : Report) : Prop where
  reason : rep.reason = E.reasonText i.reason
  span : ofSpan rep.span = locationOf xs i.idx
  annotation : rep.annotation = i.annotation.map E.rowsText
  related : List.Forall₂ (fun e (x : Str × Span) => ofSpan x.2 = locationOf xs e) (i.related.getD []) (rep.related.getD [])
  message : ∃ k, rep.message = str% "invalid " ++ k

/-- The name of the element at a position of the ledger. -/
def ElementName (ds : List Raw.Directive) (e : ElementIdx) (k : Str) : Prop :=
  (e.posting ≠ none → k = str% "posting") ∧ (e.posting = none → ∃ d, ds[e.directive]? = some d ∧ k = Server.variantName d.variant)

/-- The report says what booking says, at the places of the elements in the ledger. -/
structure ToldOf (E : Ext) (ds : List Raw.Directive) (i : IndexedReport) (rep : Report) : Prop where
  message : ∃ k, ElementName ds i.idx k ∧ rep.message = str% "invalid " ++ k
  reason : rep.reason = E.reasonText i.reason
  span : ElementSpan ds i.idx rep.span
  annotation : rep.annotation = i.annotation.map E.rowsText
  related : List.Forall₂ (fun e (x : Str × Span) => ElementName ds e x.1 ∧ ElementSpan ds e x.2) (i.related.getD []) (rep.related.getD [])

/-- All these positions have a span. -/
def Placed (xs : List Data) (i : IndexedReport) : Prop :=
  ∀ e ∈ i.idx :: i.related.getD [], ∃ sp, locationOf xs e = ofSpan sp

end Spec

namespace Clj

theorem shows_text {src : E.Sources} {reps : List Report} (h : ∀ rep ∈ reps, E.writeReport src true rep ≠ none) :
    ∃ t, Server.formatReports src true false reps = some t ∧ Shows E src reps t := by
  have key : ∀ reps : List Report, (∀ rep ∈ reps, E.writeReport src true rep ≠ none) →
      ∃ texts : List Str, List.Forall₂ (fun rep x => ∃ body, E.writeReport src true rep = some body ∧
        x = body ++ match rep.annotation with | some a => a ++ ['\n'] | none => []) reps texts ∧
        Server.formatReports src true true reps = some ((texts.map (['\n'] ++ ·)).flatten) := by
    intro reps h
    induction reps with
    | nil => exact ⟨[], .nil, rfl⟩
    | cons r reps ih =>
      obtain ⟨texts, h1, h2⟩ := ih fun rep hr => h rep (by simp [hr])
      obtain ⟨body, hb⟩ := Option.ne_none_iff_exists'.1 (h r (by simp))
      refine ⟨_ :: texts, .cons ⟨body, hb, rfl⟩ h1, ?_⟩
      simp only [Server.formatReports, Server.formatOne, hb, h2, Option.map_some, if_true, List.map_cons, List.flatten_cons]
      rfl
  cases reps with
  | nil => exact ⟨[], rfl, [], rfl, .nil⟩
  | cons r reps =>
    obtain ⟨texts, h1, h2⟩ := key reps fun rep hr => h rep (by simp [hr])
    obtain ⟨body, hb⟩ := Option.ne_none_iff_exists'.1 (h r (by simp))
    refine ⟨_, ?_, _ :: texts, rfl, .cons ⟨body, hb, rfl⟩ h1⟩
    simp only [Server.formatReports, Server.formatOne, hb, h2, Option.map_some, Bool.false_eq_true, if_false, List.nil_append]
    congr 1
    generalize (body ++ match r.annotation with | some a => a ++ ['\n'] | none => []) = x
    clear h1 h2
    induction texts generalizing x with
    | nil => simp
    | cons y texts ih =>
      have := ih y
      simp only [List.map_cons, List.flatten_cons, List.intersperse_cons₂] at this ⊢
      rw [← this]
      simp

/-- Reports which the server understands are shown. -/
theorem printError_shows (F : Front E L) (ho : IsMapOrder F.ordm) {parsed : Except (List ParserError) Parsed} {n k : Nat} (hn : n < 2147483647)
    (src : E.Sources) (msg exc : List Str) {rs : List Data} {reps : List Report}
    (hd : Json.all Wire.decReport (rs.map (toJson F.ordm)) = some reps) (hp : NotTooDeep rs)
    (hw : ∀ rep ∈ reps, E.writeReport src true rep ≠ none) :
    ∃ t, Shows E src reps t ∧
      (printError F { nextId := n, server := some (.ready src parsed), served := k } msg (some rs) exc).2 = (msg ++ [t] ++ exc, true) := by
  obtain ⟨t, h1, h2⟩ := shows_text hw
  refine ⟨t, h2, ?_⟩
  have hx : Wire.decMethod (requestEntries F.ordm (str% "parser.format-errors") (.vec rs) (n + 1)) = some (.formatErrors reps) := by
    rw [decMethod_formatErrors, hd]
    rfl
  have h3 : (Pod.formatErrors F { nextId := n, server := some (.ready src parsed), served := k } rs).2 = some (.str t) := by
    unfold Pod.formatErrors
    rw [invoke_ready F ho hn hx (src' := src) (r := { id := some (.int ((n + 1 : Nat) : Int)), payload := .report t })
      (by simp [Server.healthy, h1]) (notTooDeep_iff.1 hp)]
    dsimp only
    rw [answer_result (p := .report t) rfl (decode_str _ _)]
    rfl
  unfold printError
  dsimp only
  split
  · rename_i h
    rw [h] at h3
    cases h3
  · rename_i h
    rw [h] at h3
    cases h3
    rfl

end Clj

/-- C65 for beanfiles which do not parse: the user reads all errors, in order, each with message, reason, place, contexts and related
places. -/
theorem C65_parser (F : Front E L) (ho : IsMapOrder F.ordm) (src : E.Sources) (es : List ParserError) :
    ∃ m reps, loadBeanfile F (.ready src (.error es)) = .ok m ∧ List.Forall₂ OfParser es reps ∧
      ((∀ rep ∈ reps, E.writeReport src true rep ≠ none) →
        ∃ t, Shows E src reps t ∧ (printErrors F m.pod m.error).2 = ([t], true)) := by
  have : loadBeanfile F (.ready src (.error es) : Server E) = .ok
      { pod := ready 2 src (.error es), error := some (.parser (.vec ((Server.parserReports es).map ofReport))) } := by
    unfold loadBeanfile
    rw [start_ready F ho]
    dsimp only
    simp only [stages]
    rw [bindAll, if_neg (by simp)]
    simp only [getPluginsAndOptions, plugins_error F ho (n := 1) (by omega), Data.truthy, Bool.false_eq_true, if_false]
    rw [bindAll_error rfl]
  refine ⟨_, Server.parserReports es, this, ?_, ?_⟩
  · unfold Server.parserReports
    rw [List.forall₂_map_right_iff]
    refine List.forall₂_same.2 fun e _ => ⟨rfl, rfl, rfl, ?_, ?_, rfl⟩
    · cases h : e.contexts <;> simp [Server.parserReport, h]
    · cases h : e.related <;> simp [Server.parserReport, h]
  · intro hw
    exact printError_shows F ho (by omega) src [] [] (by
      rw [reportsOf, Data.elems, List.map_map]
      exact Wire.all_map _ _ _ fun r _ => decReport_toJson ho r) (fun x hx => by
        rw [reportsOf, Data.elems] at hx
        obtain ⟨r, -, rfl⟩ := List.mem_map.1 hx
        have := depth_ofReport r
        omega) hw

/-- C65 for beanfiles with plugins which cannot be found or used: the user reads a line for each of them, in order, and no other. -/
theorem C65_plugins (F : Front E L) (ho : IsMapOrder F.ordm) (hs : IsOrder F.ord) (src : E.Sources) {p : Parsed} (hp : OptionsOk p.options)
    (hq : ∀ o, ∃ q ∈ p.plugins, (F.resolve (ofPlugin q) o).2.2 ≠ none) :
    ∃ m, loadBeanfile F (.ready src (.ok p)) = .ok m ∧ m.error ≠ none ∧ m.directives = none ∧
      (printErrors F m.pod m.error).2 = (p.plugins.filterMap fun q => (F.resolve (ofPlugin q) m.options).2.2.map fun err =>
        str% "ERROR in plugin " ++ q.1 ++ str% " - " ++ err, true) := by
  obtain ⟨o, hx, h⟩ := options_ok F ho hs (n := 2) (by omega) src hp
  have hne : (((p.plugins.map ofPlugin).map (resolvePlugin F o)).filter (fun p => p.err.isSome)).isEmpty = false := by
    obtain ⟨q, hq1, hq2⟩ := hq o
    rw [List.isEmpty_eq_false_iff_exists_mem]
    refine ⟨resolvePlugin F o (ofPlugin q), List.mem_filter.2 ⟨List.mem_map_of_mem (List.mem_map_of_mem hq1), ?_⟩⟩
    exact Option.isSome_iff_ne_none.2 hq2
  unfold loadBeanfile
  rw [start_ready F ho]
  dsimp only
  simp only [stages]
  rw [bindAll, if_neg (by simp)]
  simp only [getPluginsAndOptions, plugins_ok F ho (n := 1) (by omega), h, Data.truthy, if_true, Data.elems, hne, Bool.false_eq_true, if_false]
  rw [bindAll_error rfl]
  refine ⟨_, rfl, by simp, rfl, ?_⟩
  simp only [printErrors]
  congr 1
  generalize p.plugins = l
  induction l with
  | nil => rfl
  | cons q l ih =>
    simp only [List.map_cons, List.filterMap_cons]
    cases he : (F.resolve (ofPlugin q) o).2.2 with
    | none =>
      rw [List.filter_cons_of_neg (by simp [resolvePlugin, he])]
      simpa using ih
    | some err =>
      rw [List.filter_cons_of_pos (by simp [resolvePlugin, he]), List.map_cons, ih]
      have hn : (ofPlugin q).get (str% "name") = .str q.1 := by simp [ofPlugin, Data.get, AMap.get]
      simp [resolvePlugin, he, hn, println, strOf]

namespace Clj

theorem describe_str {txt : Data → Str} {dct pst : Data} (h : ∃ s, dctName dct = some s) : ∃ k, describe txt dct pst = some (.str k) := by
  obtain ⟨s, h⟩ := h
  have ht : dct.truthy = true := by
    cases dct with
    | map l => rfl
    | _ => simp [dctName, Data.get] at h
  unfold describe
  rw [ht, h]
  simp only [if_true, Option.map_some]
  split
  · simp only [Option.bind_eq_bind, Option.bind_some]
    split <;> exact ⟨_, rfl⟩
  · simp only [Option.bind_eq_bind, Option.bind_some]
    split <;> exact ⟨_, rfl⟩

theorem located_str {ds : List Raw.Directive} {xs : List Data} {txt : Data → Str} (hn : ∀ x ∈ xs, ∃ s, dctName x = some s)
    (hl : xs.length = ds.length) {e : ElementIdx} (h : LocOk ds e) {l : Located} (hx : resolveReportIdx txt (ofElement e) (.vec xs) = some l) :
    ∃ k, l.description = .str k := by
  obtain ⟨i, j⟩ := e
  have h1 : i < xs.length := by rw [hl]; exact h.1
  have hdct : (Data.vec xs).nth (ofNat i) = xs[i] := by
    rw [nth_pick, pick_nat, List.getElem?_eq_getElem h1]
    rfl
  unfold resolveReportIdx at hx
  simp only [ofElement, nth_zero, hdct] at hx
  rw [Option.map_eq_some_iff] at hx
  obtain ⟨y, hy, rfl⟩ := hx
  have hd : ∀ pst, describe txt xs[i] pst = some y → ∃ k, y = .str k := by
    intro pst h
    obtain ⟨k, hk⟩ := describe_str (txt := txt) (pst := pst) (hn xs[i] (List.getElem_mem h1))
    exact ⟨k, Option.some.inj (h.symm.trans hk)⟩
  exact hd _ hy

theorem related_str {ds : List Raw.Directive} {xs : List Data} (txt : Data → Str) (hn : ∀ x ∈ xs, ∃ s, dctName x = some s)
    (hl : xs.length = ds.length) {l : List ElementIdx} (h : ∀ e ∈ l, LocOk ds e) (hs : ∀ e ∈ l, ∃ sp, locationOf xs e = ofSpan sp) :
    ∃ ls, Json.all (resolveReportRelated txt (.vec xs)) (l.map ofElement) = some (ls.map ofLabelled) ∧
      List.Forall₂ (fun e (x : Str × Span) => ofSpan x.2 = locationOf xs e) l ls := by
  induction l with
  | nil => exact ⟨[], rfl, .nil⟩
  | cons e l ih =>
    obtain ⟨ls, h1, h2⟩ := ih (fun e he => h e (by simp [he])) fun e he => hs e (by simp [he])
    obtain ⟨x, h3, h4⟩ := locate txt hn hl (h e (by simp))
    obtain ⟨k, hk⟩ := located_str hn hl (h e (by simp)) h3
    obtain ⟨sp, hsp⟩ := hs e (by simp)
    refine ⟨(k, sp) :: ls, ?_, .cons hsp.symm h2⟩
    simp only [List.map_cons, Json.all, resolveReportRelated, h3, h1, Option.map_some, hk, h4, hsp]
    rfl

/-- What the server understands of the client's report. -/
theorem told_one {ordm : List (Str × Json) → List (Str × Json)} (ho : IsMapOrder ordm) {ds : List Raw.Directive} {xs : List Data}
    (txt : Data → Str) (hn : ∀ x ∈ xs, ∃ s, dctName x = some s) (hl : xs.length = ds.length) {r : IndexedReport} (h : ReportOk ds r)
    (hs : Placed xs r) :
    ∃ c rep, resolveReportFromRaw txt (ofIndexed E r) (.vec xs) = some c ∧ Wire.decReport (toJson ordm c) = some rep ∧ Told E xs r rep := by
  obtain ⟨l, h1, h2⟩ := locate txt hn hl h.1
  obtain ⟨k, hk⟩ := located_str hn hl h.1 h1
  obtain ⟨sp, hsp⟩ := hs r.idx (by simp)
  obtain ⟨ls, h3, h4⟩ := related_str txt hn hl h.2 fun e he => hs e (by simp [he])
  have hidx : (ofIndexed E r).get (str% "idx") = ofElement r.idx := rfl
  have hrel : (ofIndexed E r).get (str% "related") = match r.related with | some l => .vec (l.map ofElement) | none => .nil := by
    simp only [ofIndexed, Data.get, get_append, get_optEntry]
    cases r.related <;> simp [AMap.get]
  have hcopy : copyField (ofIndexed E r) (copyField (ofIndexed E r) (.map []) (str% "reason")) (str% "annotation") =
      .map ([(str% "reason", .str (E.reasonText r.reason))] ++ optEntry (str% "annotation") (r.annotation.map E.rowsText) .str) := by
    obtain ⟨reason, idx, related, annotation⟩ := r
    cases related <;> cases annotation <;> rfl
  have h5 : Json.all (resolveReportRelated txt (.vec xs))
      (match r.related with | some l => Data.vec (l.map ofElement) | none => .nil).elems = some (ls.map ofLabelled) := by
    cases hre : r.related with
    | none =>
      rw [hre] at h3
      exact h3
    | some l =>
      rw [hre] at h3
      exact h3
  have hc : resolveReportFromRaw txt (ofIndexed E r) (.vec xs) = some (.map ([(str% "reason", .str (E.reasonText r.reason))] ++
      optEntry (str% "annotation") (r.annotation.map E.rowsText) .str ++
      [(str% "message", .str (str% "invalid " ++ k)), (str% "span", ofSpan sp)] ++
      optEntry (str% "context") (if l.context.truthy then some l.context else none) id ++
      optEntry (str% "related") (r.related.map fun _ => ls) (fun l => .vec (l.map ofLabelled)))) := by
    simp only [resolveReportFromRaw, hidx, h1, hcopy, hrel, h5, hk, h2, hsp, strOf, Option.bind_eq_bind, Option.bind_some]
    generalize l.context = ctx
    obtain ⟨reason, ⟨i, j⟩, related, annotation⟩ := r
    cases hct : ctx.truthy <;> cases related <;> cases annotation <;> rfl
  refine ⟨_, { message := str% "invalid " ++ k, reason := E.reasonText r.reason, span := sp, related := r.related.map fun _ => ls
               annotation := r.annotation.map E.rowsText }, hc, ?_, rfl, hsp.symm, rfl, ?_, _, rfl⟩
  · generalize (if l.context.truthy then some l.context else none) = ctx
    generalize r.annotation.map E.rowsText = annotation
    generalize (r.related.map fun _ => ls) = related
    simp only [toJson, entriesToJson_eq]
    rw [decReport_perm ?_ (ho _)]
    · simp only [List.map_append, toJson_optEntry, List.map_cons, List.map_nil, toJson, toJson_span, toJsons_eq, List.map_map,
        Function.comp_def, toJson_labelled]
      have hrel : ∀ l : List (Str × Span), Json.toList Wire.decLabelled (.arr (l.map fun x => Wire.encLabelled x)) = some l := toList_labelled
      cases annotation <;> cases ctx <;> cases related <;>
        simp [Wire.decReport, Json.req, Json.opt, Json.field, Json.vals, Json.entry, Json.toStr, Wire.decSpan_encSpan, hrel]
    · simp only [List.map_map, List.map_append]
      cases annotation <;> cases ctx <;> cases related <;> simp [optEntry]
  · cases hre : r.related with
    | none =>
      simp [Option.getD]
    | some l => simpa [hre] using h4

theorem all_told {ordm : List (Str × Json) → List (Str × Json)} (ho : IsMapOrder ordm) {ds : List Raw.Directive} {xs : List Data}
    (txt : Data → Str) (hn : ∀ x ∈ xs, ∃ s, dctName x = some s) (hl : xs.length = ds.length) {es : List IndexedReport}
    (h : ∀ r ∈ es, ReportOk ds r) (hs : ∀ r ∈ es, Placed xs r) :
    ∃ rs reps, Json.all (fun r => resolveReportFromRaw txt r (.vec xs)) (es.map (ofIndexed E)) = some rs ∧
      Json.all Wire.decReport (rs.map (toJson ordm)) = some reps ∧ List.Forall₂ (Told E xs) es reps := by
  induction es with
  | nil => exact ⟨[], [], rfl, rfl, .nil⟩
  | cons e es ih =>
    obtain ⟨rs, reps, h1, h2, h3⟩ := ih (fun r hr => h r (by simp [hr])) fun r hr => hs r (by simp [hr])
    obtain ⟨c, rep, h4, h5, h6⟩ := told_one (E := E) ho txt hn hl (h e (by simp)) (hs e (by simp))
    exact ⟨c :: rs, rep :: reps, by simp [Json.all, h4, h1], by simp [Json.all, h5, h2], .cons h6 h3⟩

end Clj

/-- C65 for ledgers with raw plugins, whatever these do: if the directives which they produce are understood by the server and a little
less deep than it accepts, as parts of them go into reports, booking these fails, and the reported elements have spans, then the user reads that booking has failed, and then all errors, in order, each with reason,
place, related places and annotation. Missing: ledgers without raw plugins, for which it is false (`C65_false`). -/
theorem C65_booking_partial (F : Front E L) (ho : IsMapOrder F.ordm) (hf : ∀ k m, (F.orders k m).Perm m) {n k : Nat} (hn : n < 2147483646)
    {src : E.Sources} {p : Parsed} {m : LoadedBeans E} (hm : m.pod = { nextId := n, server := some (.ready src (.ok p)), served := k })
    {xs : List Data} (hx : m.rawXfDirectives = some xs) {ds : List Raw.Directive}
    (hd : Json.all Wire.decDirective (xs.map (toJson F.ordm)) = some ds) (hdeep : ∀ x ∈ xs, levels x < 122) {es : List IndexedReport}
    (hb : book L (F.orders k) (Server.bookOptions p.options) ds = .failure es) (hs : ∀ r ∈ es, Placed xs r) :
    ∃ m' reps, bookRawDirectives F m = .ok m' ∧ List.Forall₂ (Told E xs) es reps ∧ reps ≠ [] ∧
      ((∀ rep ∈ reps, E.writeReport src true rep ≠ none) →
        ∃ t, Shows E src reps t ∧ (printErrors F m'.pod m'.error).2 = ([str% "Booking failed\n", t], true)) := by
  obtain ⟨h3, hn', hl, hr, hne⟩ := booking_failed F ho hf (by omega) hm hx hd (fun x h => by have := hdeep x h; omega) hb
  obtain ⟨rs, reps, h1, h2, h4⟩ := all_told (E := E) ho F.txt hn' hl hr hs
  have h0 := depth_reports (n := 121) (fun x h => by have := hdeep x h; omega) h1
  rw [h1] at h3
  refine ⟨_, reps, h3, h4, ?_, fun hw => ?_⟩
  · rintro rfl
    cases h4
    exact hne rfl
  · obtain ⟨t, h5, h6⟩ := printError_shows F ho (parsed := .ok p) (n := n + 1) (k := k + 1) (by omega) src [str% "Booking failed\n"] [] h2
      (fun x h => by have := h0 x h; omega) hw
    exact ⟨t, h5, h6⟩

namespace Clj

theorem getElem?_withoutLost (ds : List Raw.Directive) (i : Nat) : (ds.map withoutLostMeta)[i]? = (ds[i]?).map withoutLostMeta :=
  List.getElem?_map ..

/-- Metadata are no matter for places. -/
theorem resolveElement_withoutLost (e : ElementIdx) (ds : List Raw.Directive) :
    Server.resolveElement e (ds.map withoutLostMeta) = Server.resolveElement e ds := by
  unfold Server.resolveElement
  rw [getElem?_withoutLost]
  cases ds[e.directive]? with
  | none => rfl
  | some d =>
    obtain ⟨sp, date, tags, links, md, v⟩ := d
    cases v with
    | transaction t =>
      simp only [Option.map_some, withoutLostMeta]
      cases e.posting with
      | none => rfl
      | some j =>
        simp only [List.getElem?_map]
        cases t.postings[j]? <;> rfl
    | _ => rfl

theorem resolveReport_withoutLost (ds : List Raw.Directive) (r : IndexedReport) :
    Server.resolveReport E (ds.map withoutLostMeta) r = Server.resolveReport E ds r := by
  have h1 : Server.resolveContexts (ds.map withoutLostMeta) r.idx = Server.resolveContexts ds r.idx := by
    simp only [Server.resolveContexts, resolveElement_withoutLost]
  have h2 : Server.resolveRelated (ds.map withoutLostMeta) r.related = Server.resolveRelated ds r.related := by
    simp only [Server.resolveRelated, resolveElement_withoutLost]
  simp only [Server.resolveReport, resolveElement_withoutLost, h1, h2]

theorem locOk_withoutLost {ds : List Raw.Directive} {e : ElementIdx} (h : LocOk ds e) : LocOk (ds.map withoutLostMeta) e := by
  refine ⟨by simpa using h.1, fun j hj => ?_⟩
  obtain ⟨raw, t, h1, h2, h3⟩ := h.2 j hj
  refine ⟨withoutLostMeta raw, { t with postings := t.postings.map fun p => { p with metadata := withoutLost p.metadata } }, ?_, ?_, ?_⟩
  · rw [getElem?_withoutLost, h1]
    rfl
  · simp [withoutLostMeta, h2]
  · simpa using h3

theorem allSpans_withoutLost {ds : List Raw.Directive} (h : AllSpans ds) : AllSpans (ds.map withoutLostMeta) := by
  intro d hd'
  obtain ⟨d, hd, rfl⟩ := List.mem_map.1 hd'
  refine ⟨(h d hd).1, fun t ht p hp' => ?_⟩
  obtain ⟨sp, date, tags, links, md, v⟩ := d
  cases v with
  | transaction t' =>
    simp only [withoutLostMeta] at ht
    cases ht
    obtain ⟨p, hp, rfl⟩ := List.mem_map.1 hp'
    exact (h _ hd).2 t' rfl p hp
  | _ => simp [withoutLostMeta] at ht

theorem resolveElement_name {ds : List Raw.Directive} {e : ElementIdx} (hl : LocOk ds e) {k : Str} {sp : Span}
    (h : Server.resolveElement e ds = some (k, sp)) : ElementName ds e k := by
  unfold Server.resolveElement at h
  have hi := hl.1
  have hd : ds[e.directive]? = some ds[e.directive] := List.getElem?_eq_getElem hl.1
  rw [hd] at h
  simp only at h
  constructor
  · intro hp
    obtain ⟨j, hj⟩ := Option.ne_none_iff_exists'.1 hp
    obtain ⟨raw, t, h1, h2, h3⟩ := hl.2 j hj
    rw [hd] at h1
    cases h1
    have hq : t.postings[j]? = some t.postings[j] := List.getElem?_eq_getElem h3
    rw [h2, hj] at h
    simp only [hq] at h
    cases hs : t.postings[j].span with
    | none => rw [hs] at h; cases h
    | some s => rw [hs] at h; cases h; rfl
  · intro hp
    refine ⟨_, hd, ?_⟩
    rw [hp] at h
    cases hs : (ds[e.directive]).span with
    | none => cases hv : (ds[e.directive]).variant <;> simp [hv, hs] at h
    | some s => cases hv : (ds[e.directive]).variant <;> simp [hv, hs] at h <;> rw [← h.1]

theorem toldOf_one {ds : List Raw.Directive} {i : IndexedReport} (hl : ReportOk ds i) {r : Report}
    (h : Server.resolveReport E ds i = some r) : ToldOf E ds i { r with contexts := none } := by
  unfold Server.resolveReport at h
  split at h
  · rename_i k sp c rel h1 h2 h3
    cases h
    refine ⟨⟨k, resolveElement_name hl.1 h1, rfl⟩, rfl, resolveElement_span hl.1 h1, rfl, ?_⟩
    simp only
    have hr := hl.2
    cases hre : i.related with
    | none =>
      simp only [Server.resolveRelated, hre, Option.some.injEq] at h3
      subst h3
      exact .nil
    | some l =>
      simp only [Server.resolveRelated, hre, Option.map_eq_some_iff] at h3
      obtain ⟨ls, h3, rfl⟩ := h3
      rw [hre] at hr
      simp only [Option.getD_some] at hr ⊢
      have h4 := all_forall₂ h3
      clear h3 h1 h2 hre hl
      induction h4 with
      | nil => exact .nil
      | cons h4 _ ih =>
        have ho := hr _ (List.mem_cons_self ..)
        exact .cons ⟨resolveElement_name ho h4, resolveElement_span ho h4⟩ (ih fun e he => hr e (by simp [he]))
  · cases h

theorem all_toldOf {ordm : List (Str × Json) → List (Str × Json)} (ho : IsMapOrder ordm) (txt : Data → Str) (ord : List Data → List Data)
    {ds : List Raw.Directive} (ha : AllSpans ds) {es : List IndexedReport} (h : ∀ r ∈ es, ReportOk ds r) :
    ∃ rs reps, Json.all (fun r => resolveReportFromRaw txt r (.vec (ds.map fun d => ofDirective ord (withoutLostMeta d))))
        (es.map (ofIndexed E)) = some rs ∧
      Json.all Wire.decReport (rs.map (toJson ordm)) = some reps ∧ List.Forall₂ (ToldOf E ds) es reps := by
  induction es with
  | nil => exact ⟨[], [], rfl, rfl, .nil⟩
  | cons e es ih =>
    obtain ⟨rs, reps, h1, h2, h3⟩ := ih fun r hr => h r (by simp [hr])
    have he := h e (by simp)
    obtain ⟨rep, c, h4, h5, h6⟩ := C43_shown (E := E) txt ord ho (allSpans_withoutLost ha)
      (r := e) ⟨locOk_withoutLost he.1, fun x hx => locOk_withoutLost (he.2 x hx)⟩
    rw [resolveReport_withoutLost] at h4
    rw [List.map_map] at h5
    refine ⟨c :: rs, _ :: reps, ?_, by simp only [List.map_cons, Json.all, h6, h2], .cons (toldOf_one he h4) h3⟩
    simp only [List.map_cons, Json.all, h1]
    simp only [Function.comp_def] at h5
    rw [h5]

end Clj

/-- C65 for ledgers with raw plugins which pass on what they receive: if booking fails, then loading ends, and the user reads that booking
has failed, and then all errors, those of the accumulated directives in order and then those of unused pads in some order, each with the kind and the
place of the element in the beanfile, reason, related elements and annotation. Missing: ledgers without raw plugins, for which it is false
(`C65_false`). -/
theorem C65_loaded_partial (F : Front E L) (hL : Blind L) (ho : IsMapOrder F.ordm) (hs : IsOrder F.ord)
    (hf : ∀ k m, (F.orders k m).Perm m) (hv : F.valid = validDct) (src : E.Sources)
    {p : Parsed} (hp : OptionsOk p.options) (hd : ∀ d ∈ p.directives, DirectiveOk d ∧ DatesOk d ∧ NumbersFit (withoutLostMeta d))
    (ha : AllSpans p.directives) (hq : PassingPlugins F p) (hr : ∃ q ∈ p.plugins, ∀ o, (F.resolve (ofPlugin q) o).1 ≠ none)
    {es : List IndexedReport} (hb : book L (F.orders 4) (Server.bookOptions p.options) p.directives = .failure es) :
    ∃ m a b b' reps, loadBeanfile F (.ready src (.ok p)) = .ok m ∧ es = a ++ b ∧ b.Perm b' ∧ (∀ rep ∈ b, rep.reason = .unusedNoBalance) ∧
      List.Forall₂ (ToldOf E p.directives) (a ++ b') reps ∧ reps ≠ [] ∧
      ((∀ rep ∈ reps, E.writeReport src true rep ≠ none) →
        ∃ t, Shows E src reps t ∧ (printErrors F m.pod m.error).2 = ([str% "Booking failed\n", t], true)) := by
  obtain ⟨o, xs, h1, h2, h3⟩ := load_passing F ho hs src hp (fun d h => (hd d h).2.1) hq (by
    intro d h pl q o _ _
    rw [hv]
    exact (valid_raw hs _).2 (hd d h).2.2)
  rcases h1 with rfl | rfl
  · obtain ⟨q, hq1, hq2⟩ := hr
    exact absurd (h2.1 rfl q hq1) (hq2 o)
  · obtain ⟨ds, h4, h5⟩ := sent_back hs ho fun d h => (hd d h).1
    have h6 := C58_attached hL .reread (F.orders 4) (F.orders 4) (hf 4) (hf 4) (Server.bookOptions p.options) h5
    rw [hb] at h6
    cases hb' : book L (F.orders 4) (Server.bookOptions p.options) ds with
    | success out' w' => rw [hb'] at h6; exact h6.elim
    | panic => rw [hb'] at h6; exact h6.elim
    | failure es' =>
      rw [hb'] at h6
      obtain ⟨a, b, b', rfl, rfl, h7, h8⟩ := h6
      have hok : ∀ r ∈ a ++ b', ReportOk p.directives r := fun r hr =>
        (C14_locations L (F.orders 4) (hf 4) (Server.bookOptions p.options) p.directives).1 _ hb r
          (((List.Perm.refl a).append h7).mem_iff.2 hr)
      obtain ⟨h9, -, -, -, hne⟩ := booking_failed F ho hf (n := 4) (k := 4) (by omega) (src := src) (p := p)
        (m := afterRaw F src p o (some (p.directives.map fun d => ofDirective F.ord (withoutLostMeta d)))) rfl rfl h4
        (notTooDeep_parsed hs _ _) hb'
      obtain ⟨rs, reps, h10, h11, h12⟩ := all_toldOf (E := E) ho F.txt F.ord ha hok
      have h0 := depth_reports (n := 5) (fun x h => by
        obtain ⟨d, -, rfl⟩ := List.mem_map.1 h
        exact depth_ofDirective hs _) h10
      rw [h10] at h9
      have hload : loadBeanfile F (.ready src (.ok p)) = .ok
          { afterRaw F src p o (some (p.directives.map fun d => ofDirective F.ord (withoutLostMeta d))) with
            pod := { nextId := 5, server := some (.ready src (.ok p)), served := 5 }, error := some (.booking (some rs)) } := by
        rw [h3]
        simp only [stages, List.drop_succ_cons, List.drop_zero]
        rw [bindAll, if_neg (by simp [afterRaw]), h9]
        simp only [bindAll, Option.isSome_some, if_true]
      refine ⟨_, a, b, b', reps, hload, rfl, h7, h8, h12, ?_, fun hw => ?_⟩
      · rintro rfl
        generalize a ++ b' = l at h12 hne
        cases h12
        exact hne rfl
      · obtain ⟨t, h13, h14⟩ := printError_shows F ho (parsed := .ok p) (n := 5) (k := 5) (by omega) src [str% "Booking failed\n"] [] h11
          (fun x h => by have := h0 x h; omega) hw
        exact ⟨t, h13, h14⟩

/-- C65 is false: without raw plugins, the user reads that booking has failed, and nothing else; with one, that an account is not open. -/
theorem C65_false : (match loadBeanfile Ex.front (Toy.server Ex.unopened) with
      | .ok m => (printErrors Ex.front m.pod m.error).2
      | .error _ => ([], false)) = ([str% "Booking failed\n", []], true) ∧
    (match loadBeanfile Ex.passingFront (Ex.withPlugin Ex.unopened) with
      | .ok m => (printErrors Ex.passingFront m.pod m.error).2
      | .error _ => ([], false)) = ([str% "Booking failed\n", str% "invalid postingreason\n"], true) := by
  decide +kernel

/-- Non-vacuity of `C65_parser`: two errors are shown. -/
example : (match loadBeanfile Ex.front (.ready [] (.error
        [{ message := str% "syntax", reason := str% " unexpected", span := ⟨0, 0, 1⟩ },
         { message := str% "option", reason := str% " unknown", span := ⟨0, 5, 9⟩ }])) with
      | .ok m => (printErrors Ex.front m.pod m.error).2
      | .error _ => ([], false)) = ([str% "syntax unexpected\n\noption unknown\n"], true) := by
  decide +kernel

/-- A front end which finds no plugin but one. -/
def Ex.poorFront : Front Toy.ext Toy.lib :=
  { Ex.front with resolve := fun p _ =>
      if (p.get (str% "name")) matches .str ['o', 'k'] then (some Ex.passing, none, none) else (none, none, some (str% "not found")) }

/-- Non-vacuity of `C65_plugins`: two of three plugins are not found. -/
example : (match loadBeanfile Ex.poorFront (.ready [] (.ok
        { directives := [], options := Toy.options, plugins := [(str% "a", none), (str% "ok", none), (str% "b", some (str% "{}"))] })) with
      | .ok m => (printErrors Ex.poorFront m.pod m.error).2
      | .error _ => ([], false)) = ([str% "ERROR in plugin a - not found", str% "ERROR in plugin b - not found"], true) ∧
    (∀ o, (Ex.poorFront.resolve (ofPlugin (str% "a", none)) o).2.2 ≠ none) := by
  refine ⟨by decide +kernel, fun o h => ?_⟩
  cases h

/-- Non-vacuity of `C65_loaded_partial`: a ledger with a plugin which meets all hypotheses. -/
example : Blind Toy.lib ∧ IsMapOrder Ex.strictFront.ordm ∧ IsOrder Ex.strictFront.ord ∧
    (∀ k m, (Ex.strictFront.orders k m).Perm m) ∧ Ex.strictFront.valid = validDct ∧
    (∀ d ∈ Ex.unopened, DirectiveOk d ∧ DatesOk d ∧ NumbersFit (withoutLostMeta d)) ∧ AllSpans Ex.unopened ∧
    PassingPlugins Ex.strictFront { directives := Ex.unopened, options := Toy.options, plugins := [(str% "passing", none)] } ∧
    (∀ o, (Ex.strictFront.resolve (ofPlugin (str% "passing", none)) o).1 ≠ none) ∧ OptionsOk Toy.options ∧
    book Toy.lib (Ex.strictFront.orders 4) (Server.bookOptions Toy.options) Ex.unopened = .failure [Ex.unopenedReport] ∧
    ∀ src rep, Toy.ext.writeReport src true rep ≠ none := by
  have hday : CalendarDate (Toy.day 1) := Wire.validDate_iff.1 (by decide +kernel)
  have hbank : PlainName Ex.bank := Wire.borrowable_iff.1 (by decide +kernel)
  have hnzd : PlainName Ex.nzd := Wire.borrowable_iff.1 (by decide +kernel)
  refine ⟨Toy.lib_blind, fun l => .refl l, fun l => .refl l, fun k m => .refl m, rfl, ?_, Ex.unopened_ok.1, ?_, ?_, ?_, ?_, ?_⟩
  · intro d hd
    simp only [Ex.unopened, List.mem_cons, List.not_mem_nil, or_false] at hd
    subst hd
    refine ⟨⟨hday, ⟨by simp, by simp, by simp⟩, ?_⟩, ⟨hday, by simp [MetadataOk], ?_⟩, ?_⟩
    · intro p hp
      simp only [List.mem_cons, List.not_mem_nil, or_false] at hp
      subst hp
      exact ⟨hbank, by simp [hnzd], by simp, by simp, ⟨by simp, by simp, by simp⟩⟩
    · intro p hp
      simp only [List.mem_cons, List.not_mem_nil, or_false] at hp
      subst hp
      simp [MetadataOk]
    · simp [NumbersFit, withoutLostMeta, withoutLost, metadataNumbers, variantNumbers, postingNumbers, toleranceOf, FitsLong]
  · intro q _ o
    refine ⟨rfl, rfl, fun pl h => ?_⟩
    cases h
    exact ⟨fun l => rfl, fun l => rfl⟩
  · intro o h
    cases h
  · simp [OptionsOk, Toy.options, NoDatesEntries]
  · decide +kernel
  · intro src rep h
    cases h

end Limabean
