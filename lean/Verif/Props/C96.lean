/-
C96: the server reads whatever the front end sends.

`serde_json` refuses text in which arrays and objects are nested 128 deep. What the front end makes of a beanfile never is, however large
the ledger (`C96_requests`), and the exchange as texts is the exchange of the model, whatever is sent (`C96_session`). False with plugins:
these may add entries of any depth, the check of what they make does not look at the depth, and the user reads that booking has failed, and
nothing else (`C96_refused`, `C96_false`).
-/
import Verif.Props.C68
import Verif.Props.C65
import Verif.Props.C88
import Verif.Props.C49

namespace Limabean

open Clj Spec JsonText

variable {E : Ext} {L : BookLib}

/-- How an error of serde_json reads does not depend on whether the text or the message is asked. -/
def Spec.ErrorTexts (E : Ext) (error : Str → Str) : Prop :=
  ∀ j, 128 ≤ nesting j → error (jackson.write j) = E.serdeText j

namespace Clj

theorem line_jackson {error : Str → Str} (he : ErrorTexts E error) (j : Json) : line error (jackson.write j) = lineOf E j := by
  unfold lineOf
  split
  · exact line_write jackson_readable error ‹_›
  · rw [line, trim_write jackson_readable, read_write jackson_readable]
    simp only
    rw [if_neg ‹_›, he j (by omega)]

theorem lines_jackson {error : Str → Str} (he : ErrorTexts E error) (js : List Json) :
    ∃ sent, js.mapM (fun j => writeLine (jackson.write j)) = some sent ∧
      (rustLines sent.flatten).map (line error) = js.map (lineOf E) := by
  refine ⟨js.map fun j => jackson.write j ++ ['\n'], ?_, ?_⟩
  · induction js with
    | nil => rfl
    | cons j js ih =>
      rw [List.mapM_cons, writeLine_write jackson_readable, ih]
      rfl
  · have := rustLines_lines (l := js.map jackson.write) (by
      intro a ha
      obtain ⟨j, _, rfl⟩ := List.mem_map.1 ha
      exact (not_newline jackson_readable j).1)
    rw [List.flatMap_map] at this
    rw [← List.flatMap_def, this, List.map_map]
    exact List.map_congr_left fun j _ => line_jackson he j

theorem served_serve {orders : Nat → AMap Str (Account L) → AMap Str (Account L)} {n : Nat} {s s' : Server E} {lines : List Server.Line}
    {rs : List Response} {front : List Server.Line} (h : Served orders n s front rs s') (hf : front = lines.take rs.length)
    (hd : rs.length = lines.length ∨ ∃ line, lines[rs.length]? = some line ∧ Server.dispatch E L (orders (n + rs.length)) s' line = none) :
    (Server.serve E L orders n s lines).1 = rs := by
  induction h generalizing lines with
  | nil n s =>
    cases lines with
    | nil => rfl
    | cons a lines =>
      rcases hd with hd | ⟨line, h1, h2⟩
      · cases hd
      · cases h1
        simp only [List.length_nil, Nat.add_zero] at h2
        cases a with
        | notText => rfl
        | garbage e => rw [Server.serve, h2]; simp
        | json j => rw [Server.serve, h2]; simp
  | @cons n s s1 s' a front r rs hr _ ih =>
    cases lines with
    | nil => cases hf
    | cons b lines =>
      simp only [List.length_cons, List.take_succ_cons, List.cons.injEq] at hf
      obtain ⟨rfl, hf⟩ := hf
      have := ih (lines := lines) hf (by
        rcases hd with hd | ⟨line, h1, h2⟩
        · exact .inl (by simpa using hd)
        · refine .inr ⟨line, by simpa using h1, ?_⟩
          rw [List.length_cons, show n + (rs.length + 1) = n + 1 + rs.length by omega] at h2
          exact h2)
      cases a with
      | notText => cases hr
      | garbage e => simp [Server.serve, hr, this]
      | json j => simp [Server.serve, hr, this]

end Clj

/-- The exchange as texts: whatever calls the client makes, and however deep their parameters are, its check for line ends never throws,
and each call is answered by what the client reads of the text which the server writes: the first call by the first line, the second by
the second, and so on, for as long as there are lines. -/
theorem C96_session (F : Front E L) {error : Str → Str} (he : ErrorTexts E error) (s : Server E) (cs : List Call) :
    ∃ sent, (linesOf F 1 cs).mapM (fun j => writeLine (jackson.write j)) = some sent ∧
      ∃ replies : List (Option Json), replies = (javaLines (serveText E L F.orders error 0 s sent.flatten).1).map read ∧
        (∀ r ∈ replies, r ≠ none) ∧ replies.length ≤ cs.length ∧
        (invokeAll F { server := some s } cs).2 =
          replies.map (answerOf F.ord) ++ List.replicate (cs.length - replies.length) (some { ok := .nil, err := .nil }) := by
  obtain ⟨sent, h1, h2⟩ := lines_jackson he (linesOf F 1 cs)
  obtain ⟨rs, s', h3, h4, h5, h6⟩ := invokeAll_served F cs 0 0 s
  have h7 : (Server.serve E L F.orders 0 s ((linesOf F 1 cs).map (lineOf E))).1 = rs := by
    refine served_serve h3 (by rw [List.map_take]) ?_
    rcases h4 with h4 | ⟨line, h4, h8⟩
    · exact .inl (by rw [List.length_map, linesOf_length, h4])
    · exact .inr ⟨lineOf E line, by rw [List.getElem?_map, h4]; rfl, h8⟩
  have h9 := C88_answers E L F.orders error 0 s sent.flatten
  rw [h2, h7] at h9
  refine ⟨sent, h1, _, rfl, ?_, ?_, ?_⟩
  · rw [h9]
    simp
  · rw [h9, List.length_map]
    exact h5
  · rw [h9, h6, List.length_map, List.map_map]
    congr 1
    rw [← List.length_drop, List.map_const']

/-- Non-vacuity of `C96_session`: the toy server has one text for all errors. -/
example : ErrorTexts Toy.ext fun _ => str% "bad request" := fun _ _ => rfl

/-- What the front end sends of a beanfile can be read by the server, however large the ledger: the directives as it received them, for
booking; the reports as it received them, for display; the texts of synthetic spans; the reports which it makes of directives, unless these
are more than a hundred levels deep. -/
theorem C96_requests (F : Front E L) (ho : IsMapOrder F.ordm) (hs : IsOrder F.ord) (m : Str) (id : Nat) {p : Data}
    (hp : p = .nil ∨ (∃ ds : List Raw.Directive, p = .vec (ds.map (ofDirective F.ord))) ∨ (∃ rs : List Report, p = .vec (rs.map ofReport)) ∨
      (∃ ss : List SyntheticSpan, p = .vec (ss.map ofSynthetic)) ∨
      ∃ (es : List IndexedReport) (xs rs : List Data), (∀ x ∈ xs, levels x ≤ 100) ∧
        Json.all (fun r => resolveReportFromRaw F.txt r (.vec xs)) (es.map (ofIndexed E)) = some rs ∧ p = .vec rs)
    (error : Str → Str) :
    line error (jackson.write (toJson F.ordm (message m p id))) = .json (toJson F.ordm (message m p id)) := by
  have : levels p < 127 := by
    rcases hp with rfl | ⟨ds, rfl⟩ | ⟨rs, rfl⟩ | ⟨ss, rfl⟩ | ⟨es, xs, rs, h1, h2, rfl⟩
    · simp [levels]
    · exact notTooDeep_iff.1 (notTooDeep_parsed hs ds _root_.id)
    · refine Nat.lt_of_le_of_lt (depth_vec_le (n := 4) fun x hx => ?_) (by omega)
      obtain ⟨r, -, rfl⟩ := List.mem_map.1 hx
      exact depth_ofReport r
    · have := depth_ofSynthetics ss
      omega
    · exact Nat.lt_of_le_of_lt (depth_vec_le (depth_reports h1 h2)) (by omega)
  have h2 := depth_message m p id
  exact line_write jackson_readable error (by rw [nesting_toJson ho]; omega)

/-- What happens otherwise: if a plugin makes a directive which is deeper, then the server refuses the request, whatever else is in it; no
directive is booked, and the user reads that booking has failed, and nothing else. -/
theorem C96_refused (F : Front E L) (ho : IsMapOrder F.ordm) {n k : Nat} (hn : n < 2147483646) {src : E.Sources} {p : Parsed}
    {m : LoadedBeans E} (hm : m.pod = { nextId := n, server := some (.ready src (.ok p)), served := k }) {xs : List Data}
    (hx : m.rawXfDirectives = some xs) (hdeep : ∃ x ∈ xs, 126 ≤ levels x) :
    ∃ m', bookRawDirectives F m = .ok m' ∧ m'.error = some (.booking (some [])) ∧ m'.bookedDirectives = m.bookedDirectives ∧
      (printErrors F m'.pod m'.error).2 = ([str% "Booking failed\n", []], true) := by
  have h1 : 127 ≤ levels (.vec xs) := by
    by_contra h
    obtain ⟨x, h2, h3⟩ := hdeep
    have := notTooDeep_iff.2 (Nat.not_le.1 h) x h2
    omega
  have h2 : Pod.book F m.pod (some xs) = ({ nextId := n + 1, server := some (.ready src (.ok p)), served := k + 1 },
      some { message := .str (E.serdeText (toJson F.ordm (message (str% "book") (.vec xs) (n + 1)))) }) := by
    unfold Pod.book
    rw [hm, invoke_bad F ho (by omega) (.inr h1), answer_other]
    rfl
  refine ⟨{ m with
    pod := { nextId := n + 1, server := some (.ready src (.ok p)), served := k + 1 }, error := some (.booking (some [])) }, ?_, rfl, rfl, ?_⟩
  · unfold bookRawDirectives
    rw [hx, h2]
    rfl
  · obtain ⟨t, h3, h4⟩ := printError_shows F ho (parsed := .ok p) (n := n + 1) (k := k + 1) (by omega) src [str% "Booking failed\n"] []
      (rs := []) (reps := []) rfl (by simp [NotTooDeep]) (by simp)
    simp only [printErrors]
    rw [h4]
    obtain ⟨texts, rfl, h5⟩ := h3
    cases h5
    rfl

namespace Ex

/-- Something so deep. -/
def nestedVec : Nat → Data
  | 0 => .nil
  | n + 1 => .vec [nestedVec n]

/-- A directive with such an entry, which does not matter to anyone. -/
def deepNote (n : Nat) : Data := dated [(str% "dct", .kw (str% "note")), (str% "acc", .str current), (str% "comment", .str []), (str% "tree", nestedVec n)]

/-- A raw plugin which adds that directive at the end. -/
def deepPlugin (n : Nat) : Plugin where
  name := str% "deep"
  step l := [.old (l.length - 1)]
  finish _ := [.new (deepNote n)]

/-- A front end with this plugin, which checks what plugins make. -/
def deepFront (n : Nat) : Front Toy.ext Toy.lib := { front with resolve := fun _ _ => (some (deepPlugin n), none, none), valid := validDct }

end Ex

/-- C96 is false: with an entry of 124 levels the ledger is loaded; with one of 125, the check finds nothing wrong, but the user reads that
booking has failed. -/
theorem C96_false :
    (match loadBeanfile (Ex.deepFront 124) (Ex.withPlugin Ex.ledger) with
      | .ok m => (m.directives.map List.length, (printErrors Ex.front m.pod m.error).2)
      | .error _ => (none, [], false)) = (some 13, [], true) ∧
    validDct true (Ex.deepNote 125) = true ∧
    (match loadBeanfile (Ex.deepFront 125) (Ex.withPlugin Ex.ledger) with
      | .ok m => (m.directives.map List.length, (printErrors Ex.front m.pod m.error).2)
      | .error _ => (none, [], false)) = (none, [str% "Booking failed\n", []], true) := by
  decide +kernel

end Limabean
