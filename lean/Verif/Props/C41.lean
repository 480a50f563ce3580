/-
C41: booking errors reach the user.

False: unless raw plugins run, the client books the directives which the server holds; the server then answers with reports which have
spans, and the client looks only for reports with positions. The user reads "Booking failed" and nothing else, whatever the errors
(`C41_silent`, `C41_false`). With raw plugins the reports arrive (`C41_partial`).
-/
import Verif.Proofs.LoadLemmas
import Verif.Props.C40
import Verif.Props.C43

namespace Limabean

open Clj Spec

variable {E : Ext} {L : BookLib}

/-- All plugins of the ledger are found, and none of them works on raw directives. -/
def Spec.NoRawPlugins (F : Front E L) (p : Parsed) : Prop :=
  ∀ q ∈ p.plugins, ∀ o, (F.resolve (ofPlugin q) o).1 = none ∧ (F.resolve (ofPlugin q) o).2.2 = none

namespace Clj

theorem invoke_dead (F : Front E L) {pod : Pod E} (h : pod.server = none) (hw : pod.written = []) (m : Str) (p : Data) :
    pod.invoke F m p = ({ pod with nextId := pod.nextId + 1 }, some { ok := .nil, err := .nil }) := by
  obtain ⟨n, s, k, w⟩ := pod
  simp only at h hw
  subst h hw
  rfl

theorem formatErrors_none (F : Front E L) (ho : IsMapOrder F.ordm) {n : Nat} (hn : n < 2147483647) (src : E.Sources)
    (parsed : Except (List ParserError) Parsed) :
    (ready n src parsed).formatErrors F [] = (ready (n + 1) src parsed, some (.str [])) := by
  unfold Pod.formatErrors ready
  rw [invoke_ready F ho hn (x := .formatErrors []) (by rw [decMethod_formatErrors]; rfl) rfl]
  dsimp only
  rw [answer_result (p := .report []) rfl (decode_str _ _)]
  rfl

theorem silent_print (F : Front E L) (ho : IsMapOrder F.ordm) {n : Nat} (hn : n < 2147483647) (src : E.Sources)
    {parsed : Except (List ParserError) Parsed} {pod : Pod E} {k : Nat}
    (h : pod = ready n src parsed ∨ pod = { nextId := n, server := none, served := k }) :
    ∃ t, (t = [] ∨ t = str% "nil") ∧ (printErrors F pod (some (.booking (some [])))).2 = ([str% "Booking failed\n", t], true) := by
  rcases h with rfl | rfl
  · refine ⟨[], .inl rfl, ?_⟩
    simp only [printErrors, printError, formatErrors_none F ho hn]
    rfl
  · refine ⟨str% "nil", .inr rfl, ?_⟩
    simp only [printErrors, printError, Pod.formatErrors]
    rw [invoke_dead F rfl rfl]
    rfl

theorem noPlugins {F : Front E L} {p : Parsed} (h : NoRawPlugins F p) (o : Data) :
    (∀ r ∈ resolvedOf F p o, r.err = none) ∧ pluginsOfKind true (resolvedOf F p o) = [] := by
  have h1 : ∀ r ∈ resolvedOf F p o, r.err = none ∧ r.raw = none := by
    intro r hr
    unfold resolvedOf at hr
    rw [List.map_map] at hr
    obtain ⟨q, hq, rfl⟩ := List.mem_map.1 hr
    exact ⟨(h q hq o).2, (h q hq o).1⟩
  refine ⟨fun r hr => (h1 r hr).1, ?_⟩
  unfold pluginsOfKind
  rw [List.filterMap_eq_nil_iff]
  intro r hr
  simp [(h1 r hr).2]

end Clj

/-- What happens instead of C41: if no raw plugin runs and booking fails, then whatever the errors are, the loaded ledger has no report
of them, and the user sees "Booking failed" and an empty text, or `nil`. -/
theorem C41_silent (F : Front E L) (ho : IsMapOrder F.ordm) (hs : IsOrder F.ord) (src : E.Sources) {p : Parsed}
    (hp : OptionsOk p.options) (hd : ∀ d ∈ p.directives, DatesOk d) (hr : NoRawPlugins F p) {es : List IndexedReport}
    (hb : book L (F.orders 4) (Server.bookOptions p.options) p.directives = .failure es) :
    ∃ m, loadBeanfile F (.ready src (.ok p)) = .ok m ∧ m.error = some (.booking (some [])) ∧
      ∃ t, (t = [] ∨ t = str% "nil") ∧ (printErrors F m.pod m.error).2 = ([str% "Booking failed\n", t], true) := by
  obtain ⟨o, -, h⟩ := prepared F ho hs src hp hd fun o => (noPlugins hr o).1
  obtain ⟨pod, sp, h1, h2⟩ := book_none_failure F ho (n := 4) (by omega) src hb
  refine ⟨{ pod := pod, plugins := some (resolvedOf F p o), options := o
            rawDirectives := some (p.directives.map fun d => ofDirective F.ord (withoutLostMeta d))
            error := some (.booking (some [])) }, ?_, rfl, silent_print F ho (n := 5) (by omega) src h2⟩
  have : bindAll { pod := ready 1 src (.ok p) } (stages F) = .ok
      { pod := pod, plugins := some (resolvedOf F p o), options := o
        rawDirectives := some (p.directives.map fun d => ofDirective F.ord (withoutLostMeta d))
        error := some (.booking (some [])) } := by
    rw [← List.take_append_drop 2 (stages F), bindAll_append, h]
    simp only [stages, List.drop_succ_cons, List.drop_zero, bindAll, Option.isSome_none, Bool.false_eq_true, if_false, runPluginsStage,
      Option.getD_some, (noPlugins hr o).2, List.isEmpty_nil, if_true]
    simp only [bookRawDirectives, h1, Data.truthy, Bool.false_eq_true, if_false]
    rfl
  unfold loadBeanfile
  rw [start_ready F ho]
  dsimp only
  rw [this]

/-- C41 is false: the transaction posts to an account which is not open, booking fails with one error per posting, and none reaches the
loaded ledger. -/
theorem C41_false : ∃ es, book Toy.lib id {} Ex.unopened = .failure es ∧ es ≠ [] ∧
    ∃ m, loadBeanfile Ex.front (Toy.server Ex.unopened) = .ok m ∧ m.error = some (.booking (some [])) ∧
      (printErrors Ex.front m.pod m.error).2.1 = [str% "Booking failed\n", []] := by
  refine ⟨_, rfl, by decide, ?_⟩
  exact ⟨_, rfl, rfl, rfl⟩

namespace Spec

/-- The first of the values which is neither `nil` nor `false`. -/
def firstOf (l : List Data) : Data := (l.find? Data.truthy).getD .nil

/-- The posting of a directive. -/
def postingAt (dct : Data) (j : Nat) : Data := match dct.get (str% "postings") with
  | .vec l => (l[j]?).getD .nil
  | _ => .nil

/-- Where an element of the ledger is: its span, else its synthetic span; for a posting which has neither, those of its directive. -/
def locationOf (xs : List Data) (e : ElementIdx) : Data :=
  let dct := (xs[e.directive]?).getD .nil
  let own := match e.posting with
    | some j => [(postingAt dct j).get (str% "span"), (postingAt dct j).get (str% "span-p")]
    | none => []
  firstOf (own ++ [dct.get (str% "span"), dct.get (str% "span-p")])

/-- The report tells the error, and where it is. -/
structure Reports (E : Ext) (xs : List Data) (r : IndexedReport) (c : Data) : Prop where
  reason : c.get (str% "reason") = .str (E.reasonText r.reason)
  span : c.get (str% "span") = locationOf xs r.idx
  annotation : c.get (str% "annotation") = match r.annotation with | some a => .str (E.rowsText a) | none => .nil
  related : (c.get (str% "related")).elems.map (fun x => x.nth (.num ⟨1, 0⟩)) = (r.related.getD []).map (locationOf xs)

end Spec

namespace Clj

theorem vals_get {ordm : List (Str × Json) → List (Str × Json)} {l : List (Str × Data)} {k : Str} {j : Json}
    (h : Json.vals k (l.map fun p => (p.1, toJson ordm p.2)) = [j]) : ∃ v, AMap.get l k = some v ∧ toJson ordm v = j := by
  induction l with
  | nil => cases h
  | cons p l ih =>
    obtain ⟨k', v⟩ := p
    by_cases e : k' = k
    · subst e
      refine ⟨v, by simp [AMap.get], ?_⟩
      simp only [Json.vals, List.map_cons, List.filterMap_cons, if_true, List.cons.injEq] at h
      exact h.1
    · simp only [Json.vals, List.map_cons, List.filterMap_cons, e, if_false] at h
      obtain ⟨v', h1, h2⟩ := ih h
      exact ⟨v', by simp [AMap.get, e, h1], h2⟩

/-- A directive which the server understands has a kind which the client can name. -/
theorem decoded_name {ordm : List (Str × Json) → List (Str × Json)} (ho : IsMapOrder ordm) {x : Data} {d : Raw.Directive}
    (h : Wire.decDirective (toJson ordm x) = some d) : ∃ s, dctName x = some s := by
  cases x with
  | map l =>
    simp only [toJson, entriesToJson_eq] at h
    have hp := ho (l.map fun p => (p.1, toJson ordm p.2))
    generalize ordm (l.map fun p => (p.1, toJson ordm p.2)) = l' at h hp
    simp only [Wire.decDirective, Option.bind_eq_bind, Option.bind_eq_some_iff] at h
    obtain ⟨-, -, -, -, -, -, -, -, -, -, v, hv, -⟩ := h
    unfold Wire.decVariant at hv
    split at hv
    · cases hv
    · rename_i s hs
      unfold Json.req at hs
      split at hs
      · rename_i j hj
        unfold Json.field at hj
        split at hj
        · cases hj
        · rename_i y hy
          cases hj
          have h1 : (Json.vals (str% "dct") (l.map fun p => (p.1, toJson ordm p.2))).Perm [j] := by
            rw [← hy]
            exact (hp.filterMap _).symm
          rw [List.perm_singleton] at h1
          obtain ⟨w, h2, h3⟩ := vals_get h1
          subst h3
          simp only [dctName, Data.get, h2, Option.getD_some]
          cases w with
          | kw s => exact ⟨_, rfl⟩
          | str s => exact ⟨_, rfl⟩
          | date t =>
            exfalso
            simp only [toJson, Json.toStr, Option.some.injEq] at hs
            subst hs
            simp [Wire.fmtDate] at hv
          | _ => simp [toJson, Json.toStr] at hs
        · cases hj
      · cases hs
  | _ => simp [toJson, Wire.decDirective] at h

theorem get_assoc_map (l : List (Str × Data)) (k k' : Str) (v : Data) :
    ((Data.map l).assoc k v).get k' = if k = k' then v else (Data.map l).get k' := by
  simp only [Data.assoc, Data.get, AMap.get_set]
  split <;> rfl

/-- It is a map. -/
def IsMap (x : Data) : Prop := ∃ l, x = .map l

theorem IsMap.assoc {x : Data} (h : IsMap x) (k : Str) (v : Data) : IsMap (x.assoc k v) := by
  obtain ⟨l, rfl⟩ := h
  exact ⟨_, rfl⟩

theorem IsMap.assocIf {x : Data} (h : IsMap x) (c : Bool) (k : Str) (v : Data) : IsMap (assocIf c x k v) := by
  unfold Clj.assocIf
  split
  · exact h.assoc k v
  · exact h

theorem IsMap.copy {x : Data} (h : IsMap x) (r : Data) (k : Str) : IsMap (copyField r x k) := by
  unfold copyField
  split
  · exact h.assoc k _
  · exact h

theorem IsMap.get_assoc {x : Data} (h : IsMap x) (k k' : Str) (v : Data) : (x.assoc k v).get k' = if k = k' then v else x.get k' := by
  obtain ⟨l, rfl⟩ := h
  exact get_assoc_map l k k' v

theorem IsMap.get_assocIf {x : Data} (h : IsMap x) (c : Bool) (k k' : Str) (v : Data) :
    (Clj.assocIf c x k v).get k' = if k = k' ∧ c = true then v else x.get k' := by
  unfold Clj.assocIf
  split
  · rename_i hc
    rw [h.get_assoc]
    simp [hc]
  · rename_i hc
    simp [hc]

theorem IsMap.get_copy {x : Data} (h : IsMap x) (r : Data) (k k' : Str) :
    (copyField r x k).get k' = if k = k' ∧ r.has k = true then r.get k else x.get k' := by
  unfold copyField
  split
  · rename_i hc
    rw [h.get_assoc]
    simp [hc]
  · rename_i hc
    simp [hc]

theorem first_four (a b c d : Data) : (if ((a.or b).or (c.or d)).truthy then (a.or b).or (c.or d) else .nil) = firstOf [a, b, c, d] := by
  unfold Data.or firstOf
  simp only [List.find?_cons, List.find?_nil]
  cases ha : a.truthy <;> cases hb : b.truthy <;> cases hc : c.truthy <;> cases hd : d.truthy <;> simp_all

theorem locate {ds : List Raw.Directive} {xs : List Data} (txt : Data → Str) (hn : ∀ x ∈ xs, ∃ s, dctName x = some s)
    (hl : xs.length = ds.length) {e : ElementIdx} (h : LocOk ds e) :
    ∃ l, resolveReportIdx txt (ofElement e) (.vec xs) = some l ∧ l.span = locationOf xs e := by
  obtain ⟨i, j⟩ := e
  obtain ⟨h1, -⟩ := h
  simp only at h1
  rw [← hl] at h1
  have hx : xs[i]? = some xs[i] := List.getElem?_eq_getElem h1
  obtain ⟨s, hs⟩ := hn xs[i] (List.getElem_mem h1)
  unfold resolveReportIdx
  simp only [ofElement, nth_zero]
  have hdct : (Data.vec xs).nth (ofNat i) = xs[i] := by
    rw [nth_pick, pick_nat, hx]
    rfl
  simp only [hdct]
  have hd : ∀ pst, ∃ k, describe txt xs[i] pst = some k := by
    intro pst
    unfold describe
    rw [hs]
    simp only [Option.map_some]
    split
    · simp only [Option.bind_eq_bind, Option.bind_some]
      split <;> exact ⟨_, rfl⟩
    · split
      · simp only [Option.bind_eq_bind, Option.bind_some]
        split <;> exact ⟨_, rfl⟩
      · simp only [Option.bind_eq_bind, Option.bind_some]
        split <;> exact ⟨_, rfl⟩
  cases j with
  | none =>
    have hp : ((xs[i]).get (str% "postings")).nth ((Data.vec [ofNat i]).nth (.num ⟨1, 0⟩)) = .nil := by
      rw [nth_pick]
      have : (Data.vec [ofNat i]).nth (.num ⟨1, 0⟩) = .nil := by simp [Data.nth]
      rw [this]
      unfold pick
      split <;> rfl
    simp only [hp]
    obtain ⟨k, hk⟩ := hd .nil
    rw [hk]
    refine ⟨_, rfl, ?_⟩
    simp only [locationOf, hx, Option.getD_some, List.nil_append]
    exact first_four .nil .nil _ _
  | some j =>
    have hp : ((xs[i]).get (str% "postings")).nth ((Data.vec [ofNat i, ofNat j]).nth (.num ⟨1, 0⟩)) = postingAt xs[i] j := by
      have : (Data.vec [ofNat i, ofNat j]).nth (.num ⟨1, 0⟩) = ofNat j := by simp [Data.nth]
      rw [this]
      unfold postingAt
      split
      · rename_i l hl
        rw [hl, nth_pick, pick_nat]
      · rename_i h
        cases hq : (xs[i]).get (str% "postings") with
        | vec l => exact absurd hq (h l)
        | _ => simp [Data.nth]
    simp only [hp]
    obtain ⟨k, hk⟩ := hd (postingAt xs[i] j)
    rw [hk]
    refine ⟨_, rfl, ?_⟩
    simp only [locationOf, hx, Option.getD_some, List.cons_append, List.nil_append]
    exact first_four _ _ _ _

theorem locate_related {ds : List Raw.Directive} {xs : List Data} (txt : Data → Str) (hn : ∀ x ∈ xs, ∃ s, dctName x = some s)
    (hl : xs.length = ds.length) {l : List ElementIdx} (h : ∀ e ∈ l, LocOk ds e) :
    ∃ ls, Json.all (resolveReportRelated txt (.vec xs)) (l.map ofElement) = some ls ∧
      ls.map (fun x => x.nth (.num ⟨1, 0⟩)) = l.map (locationOf xs) := by
  induction l with
  | nil => exact ⟨[], rfl, rfl⟩
  | cons e l ih =>
    obtain ⟨ls, h1, h2⟩ := ih fun e he => h e (by simp [he])
    obtain ⟨x, h3, h4⟩ := locate txt hn hl (h e (by simp))
    refine ⟨.vec [x.description, x.span] :: ls, ?_, ?_⟩
    · simp [Json.all, resolveReportRelated, h3, h1]
    · simp only [List.map_cons, h2]
      rw [← h4]
      rfl

theorem reports_one {ds : List Raw.Directive} {xs : List Data} (txt : Data → Str) (hn : ∀ x ∈ xs, ∃ s, dctName x = some s)
    (hl : xs.length = ds.length) {r : IndexedReport} (h : ReportOk ds r) :
    ∃ c, resolveReportFromRaw txt (ofIndexed E r) (.vec xs) = some c ∧ Reports E xs r c := by
  obtain ⟨l, h1, h2⟩ := locate txt hn hl h.1
  obtain ⟨ls, h3, h4⟩ := locate_related txt hn hl h.2
  have hidx : (ofIndexed E r).get (str% "idx") = ofElement r.idx := rfl
  have hrel : (ofIndexed E r).get (str% "related") = match r.related with | some l => .vec (l.map ofElement) | none => .nil := by
    simp only [ofIndexed, Data.get, get_append, get_optEntry]
    cases r.related <;> simp [AMap.get]
  have hann : (ofIndexed E r).get (str% "annotation") = match r.annotation with | some a => .str (E.rowsText a) | none => .nil := by
    simp only [ofIndexed, Data.get, get_append, get_optEntry]
    cases r.annotation <;> simp [AMap.get]
  have hann' : (ofIndexed E r).has (str% "annotation") = r.annotation.isSome := by
    simp only [ofIndexed, Data.has, get_append, get_optEntry]
    cases r.annotation <;> simp [AMap.get]
  have hrea : (ofIndexed E r).get (str% "reason") = .str (E.reasonText r.reason) := rfl
  have hrea' : (ofIndexed E r).has (str% "reason") = true := rfl
  have h5 : Json.all (resolveReportRelated txt (.vec xs))
      (match r.related with | some l => Data.vec (l.map ofElement) | none => .nil).elems = some ls := by
    cases hre : r.related with
    | none =>
      rw [hre] at h3
      exact h3
    | some l =>
      rw [hre] at h3
      exact h3
  simp only [resolveReportFromRaw, hidx, h1, hrel, h5, Option.bind_eq_bind, Option.bind_some]
  have hm0 : IsMap (.map []) := ⟨_, rfl⟩
  have hm1 := (hm0.copy (ofIndexed E r) (str% "reason")).copy (ofIndexed E r) (str% "annotation")
  have hm2 := (hm1.assoc (str% "message") (.str (str% "invalid " ++ strOf txt l.description))).assoc (str% "span") l.span
  have hm3 := hm2.assocIf l.context.truthy (str% "context") l.context
  refine ⟨_, rfl, ?_, ?_, ?_, ?_⟩
  · rw [hm3.get_assocIf, if_neg (by simp), hm2.get_assocIf, if_neg (by simp), (hm1.assoc _ _).get_assoc, if_neg (by simp),
      hm1.get_assoc, if_neg (by simp), (hm0.copy _ _).get_copy, if_neg (by simp), hm0.get_copy, hrea', hrea, if_pos (by simp)]
  · rw [hm3.get_assocIf, if_neg (by simp), hm2.get_assocIf, if_neg (by simp), (hm1.assoc _ _).get_assoc, if_pos rfl, h2]
  · rw [hm3.get_assocIf, if_neg (by simp), hm2.get_assocIf, if_neg (by simp), (hm1.assoc _ _).get_assoc, if_neg (by simp),
      hm1.get_assoc, if_neg (by simp), (hm0.copy _ _).get_copy, hann, hann']
    cases r.annotation with
    | some a => simp
    | none =>
      rw [if_neg (by simp), hm0.get_copy, if_neg (by simp)]
      rfl
  · rw [hm3.get_assocIf]
    cases hre : r.related with
    | some l =>
      rw [hre] at h4
      simpa [Data.truthy, Data.elems] using h4
    | none =>
      rw [if_neg (by simp [Data.truthy]), hm2.get_assocIf, if_neg (by simp), (hm1.assoc _ _).get_assoc, if_neg (by simp),
        hm1.get_assoc, if_neg (by simp), (hm0.copy _ _).get_copy, if_neg (by simp), hm0.get_copy, if_neg (by simp)]
      rfl

end Clj

namespace Clj

/-- What is known when booking the directives of raw plugins has failed. -/
theorem booking_failed (F : Front E L) (ho : IsMapOrder F.ordm) (hf : ∀ k m, (F.orders k m).Perm m) {n k : Nat} (hn : n < 2147483647)
    {src : E.Sources} {p : Parsed} {m : LoadedBeans E} (hm : m.pod = { nextId := n, server := some (.ready src (.ok p)), served := k })
    {xs : List Data} (hx : m.rawXfDirectives = some xs) {ds : List Raw.Directive}
    (hd : Json.all Wire.decDirective (xs.map (toJson F.ordm)) = some ds) (hs : NotTooDeep xs) {es : List IndexedReport}
    (hb : book L (F.orders k) (Server.bookOptions p.options) ds = .failure es) :
    bookRawDirectives F m = .ok { m with
      pod := { nextId := n + 1, server := some (.ready src (.ok p)), served := k + 1 }
      error := some (.booking (Json.all (fun r => resolveReportFromRaw F.txt r (.vec xs)) (es.map (ofIndexed E)))) } ∧
    (∀ x ∈ xs, ∃ s, dctName x = some s) ∧ xs.length = ds.length ∧ (∀ r ∈ es, ReportOk ds r) ∧ es ≠ [] := by
  refine ⟨?_, ?_, ?_, (C14_locations L (F.orders k) (hf k) (Server.bookOptions p.options) ds).1 es hb, ?_⟩
  · have h3 : m.pod.book F (some xs) = ({ nextId := n + 1, server := some (.ready src (.ok p)), served := k + 1 },
        some { indexed := .vec (es.map (ofIndexed E)) }) := by
      unfold Pod.book
      rw [hm]
      dsimp only
      rw [invoke_ready F ho hn (x := .book (some ds)) (by rw [decMethod_book, hd]; rfl) (src' := src)
        (r := Server.indexedErrorReports (some (.int ((n + 1 : Nat) : Int))) es) (hp := notTooDeep_iff.1 hs)]
      · dsimp only
        rw [answer_indexed]
      · simp [Server.healthy, Server.bookRequest, hb]
    simp only [bookRawDirectives, hx, h3, Data.truthy, Bool.false_eq_true, if_false]
    rfl
  · intro x hx'
    obtain ⟨i, hi⟩ := List.mem_iff_getElem?.1 (List.mem_map_of_mem (f := toJson F.ordm) hx')
    obtain ⟨h1, h2⟩ := List.getElem?_eq_some_iff.1 hi
    have hf2 := all_forall₂ hd
    have h3 := List.forall₂_iff_get.1 hf2
    have h4 := h3.2 i h1 (h3.1 ▸ h1)
    simp only [List.get_eq_getElem, h2] at h4
    exact decoded_name ho h4
  · rw [← (all_forall₂ hd).length_eq, List.length_map]
  · obtain ⟨_, _, _, h⟩ := collect_failure hb
    exact h

end Clj

/-- C41 for ledgers with raw plugins: if the directives which they produce are understood by the server, and booking these fails, then the
loaded ledger has one report for each booking error, in the same order, with its reason, its annotation, the location of the offending
element among the directives sent, and the related locations; there is at least one. Missing: ledgers without raw plugins, for which it
is false (`C41_silent`). -/
theorem C41_partial (F : Front E L) (ho : IsMapOrder F.ordm) (hf : ∀ k m, (F.orders k m).Perm m) {n k : Nat} (hn : n < 2147483647)
    {src : E.Sources} {p : Parsed} {m : LoadedBeans E} (hm : m.pod = { nextId := n, server := some (.ready src (.ok p)), served := k })
    {xs : List Data} (hx : m.rawXfDirectives = some xs) {ds : List Raw.Directive}
    (hd : Json.all Wire.decDirective (xs.map (toJson F.ordm)) = some ds) (hs : NotTooDeep xs) {es : List IndexedReport}
    (hb : book L (F.orders k) (Server.bookOptions p.options) ds = .failure es) :
    ∃ m' rs, bookRawDirectives F m = .ok m' ∧ m'.error = some (.booking (some rs)) ∧ rs ≠ [] ∧ List.Forall₂ (Reports E xs) es rs := by
  obtain ⟨h3, hn', hl, hr, hne⟩ := booking_failed F ho hf hn hm hx hd hs hb
  obtain ⟨rs, h1, h2⟩ : ∃ rs, Json.all (fun r => resolveReportFromRaw F.txt r (.vec xs)) (es.map (ofIndexed E)) = some rs ∧
      List.Forall₂ (Reports E xs) es rs := by
    clear hb h3 hne
    induction es with
    | nil => exact ⟨[], rfl, .nil⟩
    | cons e es ih =>
      obtain ⟨rs, h1, h2⟩ := ih fun r h => hr r (by simp [h])
      obtain ⟨c, h3, h4⟩ := reports_one (E := E) F.txt hn' hl (hr e (by simp))
      exact ⟨c :: rs, by simp [Json.all, h3, h1], .cons h4 h2⟩
  rw [h1] at h3
  refine ⟨_, rs, h3, rfl, ?_, h2⟩
  rintro rfl
  cases h2
  exact hne rfl

namespace Ex

/-- A raw plugin which passes on what it gets. -/
def passing : Plugin where
  name := str% "passing"
  step l := [.old (l.length - 1)]
  finish _ := []

/-- A front end which finds that plugin, whatever the name. -/
def passingFront : Front Toy.ext Toy.lib := { front with resolve := fun _ _ => (some passing, none, none) }

/-- A ledger with a plugin. -/
def withPlugin (ds : List Raw.Directive) : Server Toy.ext :=
  .ready [] (.ok { directives := ds, options := Toy.options, plugins := [(str% "passing", none)] })

/-- The numbers of a span. -/
def spanNumbers : Data → List Dec
  | .vec [.num a, .num b, .num c] => [a, b, c]
  | _ => []

/-- The spans of the reports of a booking failure. -/
def bookingSpans : Option LoadError → Option (List (List Dec))
  | some (.booking (some rs)) => some (rs.map fun r => spanNumbers (r.get (str% "span")))
  | _ => none

/-- The error of a load. -/
def loadError (F : Front Toy.ext Toy.lib) (s : Server Toy.ext) : Option LoadError := match loadBeanfile F s with
  | .ok m => m.error
  | .error _ => none

end Ex

/-- Non-vacuity of `C41_partial`: with a raw plugin which changes nothing, the report on the posting arrives. -/
example : Ex.bookingSpans (Ex.loadError Ex.passingFront (Ex.withPlugin Ex.unopened)) =
    some [[⟨0, 0⟩, ⟨20, 0⟩, ⟨40, 0⟩]] := by decide +kernel

/-- The same ledger without the plugin. -/
example : Ex.bookingSpans (Ex.loadError Ex.front (Toy.server Ex.unopened)) = some [] := by decide +kernel

/-- Non-vacuity of `C41_silent`. -/
example : NoRawPlugins Ex.front { directives := Ex.unopened, options := Toy.options, plugins := [] } ∧ OptionsOk Toy.options ∧
    ∃ es, book Toy.lib (Ex.front.orders 4) (Server.bookOptions Toy.options) Ex.unopened = .failure es :=
  ⟨by simp [NoRawPlugins], by simp [OptionsOk, Toy.options, NoDatesEntries], _, rfl⟩

end Limabean
