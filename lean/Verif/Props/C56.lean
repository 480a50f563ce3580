/-
C56: the errors which plugins report on directives reach the user, with the places where they are.

False for the second place: a directive from the beanfile which a plugin has changed has a span in the beanfile and a synthetic one; the
code means to show both, but the place in the beanfile is never shown (`C56_never`, `C56_false`). All else arrives (`C56_partial`).
-/
import Verif.Props.C50

namespace Limabean

open Clj Spec

variable {E : Ext} {L : BookLib}

/-- An error as `dct-error!` makes it: clj/src/limabean/plugin.clj:9-15. -/
structure Spec.Complaint where
  message : Str
  plugin : Str

/-- As data. -/
def Spec.ofComplaint (c : Complaint) : Data := .map [(str% "message", .str c.message), (str% "plugin", .str c.plugin)]

/-- A directive carries these errors, and is at this place: where its synthetic span is if it has one, else its span. -/
structure Spec.Complains (d : Data) (x : List Complaint × Span) : Prop where
  errors : d.get (str% "err") = .vec (x.1.map ofComplaint)
  place : d.get (str% "span-p") = ofSpan x.2 ∨ (d.get (str% "span-p") = .nil ∧ d.get (str% "span") = ofSpan x.2)

/-- The reports on the errors, in order: each names the plugin, tells its message, and has the place of the directive. -/
def Spec.complaintReports (xs : List (List Complaint × Span)) : List Report :=
  xs.flatMap fun x => x.1.map fun c => { message := c.plugin, reason := c.message, span := x.2 }

namespace Clj

theorem dctReport_eq {d : Data} {x : List Complaint × Span} (h : Complains d x) (c : Complaint) :
    dctReport d (ofComplaint c) = ofReport { message := c.plugin, reason := c.message, span := x.2 } := by
  have hs : (d.get (str% "span-p")).or (d.get (str% "span")) = ofSpan x.2 := by
    rcases h.place with h | ⟨h, h'⟩
    · rw [h]; rfl
    · rw [h, h']; rfl
  simp only [dctReport, hs, ofComplaint]
  simp [Data.get, Data.truthy, AMap.get, ofReport, optEntry]

theorem dctReports_eq {ds : List Data} {xs : List (List Complaint × Span)} (h : List.Forall₂ Complains ds xs) :
    dctReports ds = some ((complaintReports xs).map ofReport) := by
  have key : Json.all (fun d => (errsOf d).map fun es => es.map (dctReport d)) ds =
      some (xs.map fun x => x.1.map fun c => ofReport { message := c.plugin, reason := c.message, span := x.2 }) := by
    induction h with
    | nil => rfl
    | @cons d x ds xs hd _ ih =>
      have h1 : errsOf d = some (x.1.map ofComplaint) := by
        unfold errsOf
        rw [hd.errors]
      have h2 : (x.1.map ofComplaint).map (dctReport d) =
          x.1.map fun c => ofReport { message := c.plugin, reason := c.message, span := x.2 } := by
        rw [List.map_map]
        exact List.map_congr_left fun c _ => dctReport_eq hd c
      simp only [Json.all, h1, Option.map_some, h2, ih, List.map_cons]
  rw [dctReports, key]
  simp only [Option.map_some, complaintReports, List.flatMap, List.map_flatten, List.map_map]
  congr 3
  funext x
  simp [Function.comp_def]

end Clj

/-- C56 without the second place: if plugins report errors on directives with spans, then what is printed is the server's text for one
report per error, in order, each naming the plugin, with its message and the place of the directive. Missing: the place in the beanfile of
a directive which a plugin has changed, see `C56_never`. -/
theorem C56_partial (F : Front E L) (ho : IsMapOrder F.ordm) {n : Nat} (hn : n < 2147483647) (src : E.Sources)
    (parsed : Except (List ParserError) Parsed) (raw : Bool) {ds : List Data} {xs : List (List Complaint × Span)}
    (h : List.Forall₂ Complains ds xs) {t : Str} (ht : Server.formatReports src true false (complaintReports xs) = some t) :
    printErrors F (ready n src parsed) (some (.dctErrors raw ds)) = (ready (n + 1) src parsed, [t], true) := by
  have hd : Json.all Wire.decReport (((complaintReports xs).map ofReport).map (toJson F.ordm)) = some (complaintReports xs) := by
    rw [List.map_map]
    exact Wire.all_map _ _ _ fun r _ => decReport_toJson ho r
  have hx : Wire.decMethod (requestEntries F.ordm (str% "parser.format-errors") (.vec ((complaintReports xs).map ofReport)) (n + 1)) =
      some (.formatErrors (complaintReports xs)) := by
    rw [decMethod_formatErrors, hd]
    rfl
  have hf : (ready n src parsed).formatErrors F ((complaintReports xs).map ofReport) = (ready (n + 1) src parsed, some (.str t)) := by
    unfold Pod.formatErrors ready
    rw [invoke_ready F ho hn hx (src' := src) (r := { id := some (.int ((n + 1 : Nat) : Int)), payload := .report t })
      (by simp [Server.healthy, ht]) (Nat.lt_of_le_of_lt (depth_vec_le fun x hx => by
        obtain ⟨r, -, rfl⟩ := List.mem_map.1 hx
        exact depth_ofReport r) (by omega))]
    dsimp only
    rw [answer_result (p := .report t) rfl (decode_str _ _)]
    rfl
  simp only [printErrors, printError, dctReports_eq h, hf]
  rfl

/-- What happens instead: whatever the directive and the error, the report has no related place. -/
theorem C56_never (d err : Data) : (dctReport d err).get (str% "related") = .nil := by
  simp [dctReport, Data.get, Data.truthy, AMap.get]

namespace Ex

/-- A directive which a plugin has changed and complains about. -/
def changed : Data :=
  .map [(str% "dct", .kw (str% "note")), (str% "span", ofSpan ⟨0, 10, 20⟩), (str% "span-p", ofSpan ⟨1, 0, 8⟩),
    (str% "err", .vec [ofComplaint { message := str% "too long", plugin := str% "notes" }])]

end Ex

/-- C56 is false: the directive has a span in the beanfile besides the synthetic one, but the only report on it has just the latter. -/
theorem C56_false : Ex.changed.get (str% "span") = ofSpan ⟨0, 10, 20⟩ ∧ dctReports [Ex.changed] =
    some [ofReport { message := str% "notes", reason := str% "too long", span := ⟨1, 0, 8⟩ }] := ⟨rfl, rfl⟩

/-- Non-vacuity of `C56_partial`. -/
example : List.Forall₂ Complains [Ex.changed] [([{ message := str% "too long", plugin := str% "notes" }], ⟨1, 0, 8⟩)] :=
  .cons ⟨rfl, .inl rfl⟩ .nil

end Limabean
