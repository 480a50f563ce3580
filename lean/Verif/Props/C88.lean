/-
C88: client and server understand one another whatever characters the messages contain.
-/
import Verif.Proofs.JsonTextLemmas
import Verif.Props.Examples

namespace Limabean

open JsonText

/-- Whatever a message contains, its text has no line end, nor any other control character. -/
theorem C88_one_line (j : Json) : (∀ c ∈ serde.write j, 32 ≤ c.toNat) ∧ ∀ c ∈ jackson.write j, 32 ≤ c.toNat :=
  ⟨write_plain serde_readable j, write_plain jackson_readable j⟩

/-- What is read is what was written: every string with all its characters, every number with all its digits, everything in order. -/
theorem C88_read (j : Json) : read (serde.write j) = some j ∧ read (jackson.write j) = some j :=
  ⟨read_write serde_readable j, read_write jackson_readable j⟩

/-- The client's check for line ends never throws, and the server takes the lines for exactly the messages which were sent, in order, as
long as these are nested less than 128 deep. -/
theorem C88_sent (error : Str → Str) (js : List Json) (h : ∀ j ∈ js, nesting j < 128) :
    ∃ sent, js.mapM (fun j => writeLine (jackson.write j)) = some sent ∧
      (rustLines sent.flatten).map (line error) = js.map .json := by
  refine ⟨js.map fun j => jackson.write j ++ ['\n'], ?_, ?_⟩
  · induction js with
    | nil => rfl
    | cons j js ih =>
      rw [List.mapM_cons, writeLine_write jackson_readable, ih (fun k hk => h k (by simp [hk]))]
      rfl
  · have := rustLines_lines (l := js.map jackson.write) (by
      intro a ha
      obtain ⟨j, _, rfl⟩ := List.mem_map.1 ha
      exact (not_newline jackson_readable j).1)
    rw [List.flatMap_map] at this
    rw [← List.flatMap_def, this, List.map_map]
    exact List.map_congr_left fun j hj => line_write jackson_readable error (h j hj)

/-- Whatever text the server is sent, by whomever: the lines which a client reads are the server's responses, one each, in order. -/
theorem C88_answers (E : Ext) (L : BookLib) (orders : Nat → AMap Str (Account L) → AMap Str (Account L)) (error : Str → Str) (n : Nat)
    (s : Server E) (input : Str) :
    (javaLines (serveText E L orders error n s input).1).map read =
      (Server.serve E L orders n s ((rustLines input).map (line error))).1.map fun r => some (Wire.encResponse E r) := by
  unfold serveText
  dsimp only
  generalize (Server.serve E L orders n s ((rustLines input).map (line error))).1 = rs
  have := javaLines_lines (l := rs.map fun r => serde.write (Wire.encResponse E r)) (by
    intro a ha
    obtain ⟨r, _, rfl⟩ := List.mem_map.1 ha
    exact not_newline serde_readable _)
  rw [List.flatMap_map] at this
  rw [this, List.map_map]
  exact List.map_congr_left fun r _ => read_write serde_readable _

/-- An exchange as texts is an exchange of messages: the client's lines are accepted, the server does and ends as on the messages
themselves, and the client reads exactly the server's responses. -/
theorem C88_exchange (E : Ext) (L : BookLib) (orders : Nat → AMap Str (Account L) → AMap Str (Account L)) (error : Str → Str) (n : Nat)
    (s : Server E) (js : List Json) (h : ∀ j ∈ js, nesting j < 128) :
    ∃ sent, js.mapM (fun j => writeLine (jackson.write j)) = some sent ∧
      (javaLines (serveText E L orders error n s sent.flatten).1).map read =
        (Server.serve E L orders n s (js.map .json)).1.map (fun r => some (Wire.encResponse E r)) ∧
      (serveText E L orders error n s sent.flatten).2 = (Server.serve E L orders n s (js.map .json)).2 := by
  obtain ⟨sent, h1, h2⟩ := C88_sent error js h
  refine ⟨sent, h1, ?_, ?_⟩
  · rw [C88_answers, h2]
  · rw [serveText, h2]

/-- A string can be borrowed from the text of the message, which needs its text to be free of backslashes, if and only if it has no
quote, backslash or control character. -/
theorem C88_borrowed (upper : Bool) (s : Str) : '\\' ∉ quote upper s ↔ ∀ c ∈ s, c ≠ '"' ∧ c ≠ '\\' ∧ 32 ≤ c.toNat := by
  have hesc : ∀ c, '\\' ∈ escape upper c ↔ c = '"' ∨ c = '\\' ∨ c.toNat < 32 := by
    intro c
    unfold escape
    by_cases h1 : c = '"'
    · simp [h1]
    by_cases h2 : c = '\\'
    · simp [h2]
    by_cases h3 : c = '\x08'
    · subst h3; revert upper; decide
    by_cases h4 : c = '\x0c'
    · subst h4; revert upper; decide
    by_cases h5 : c = '\n'
    · subst h5; revert upper; decide
    by_cases h6 : c = '\r'
    · subst h6; revert upper; decide
    by_cases h7 : c = '\t'
    · subst h7; revert upper; decide
    by_cases h8 : c.toNat < 32
    · simp [h1, h2, h3, h4, h5, h6, h7, h8]
    · simp [h1, h2, h3, h4, h5, h6, h7, h8, Ne.symm h2]
  simp only [quote, List.cons_append, List.mem_cons, List.mem_append, List.mem_flatMap, List.not_mem_nil, or_false, not_or, not_exists,
    not_and, hesc]
  constructor
  · intro h c hc
    have := h.2.1 c hc
    exact ⟨this.1, this.2.1, by omega⟩
  · intro h
    refine ⟨by decide, fun c hc => ?_, by decide⟩
    have := h c hc
    exact ⟨this.1, this.2.1, by omega⟩

namespace Ex

/-- A narration of two lines with a quote and a control character, a small number, an empty array. -/
def awkward : Json :=
  .obj [(str% "narration", .str ['a', '\n', '"', '\x01', 'é']), (str% "units", .num ⟨-12, 9⟩), (str% "tags", .arr []), (str% "n", .null)]

example : serde.write awkward = str% "{\"narration\":\"a\\n\\\"\\u0001é\",\"units\":-0.000000012,\"tags\":[],\"n\":null}" := by decide +kernel

example : jackson.write awkward = str% "{\"narration\":\"a\\n\\\"\\u0001é\",\"units\":-1.2E-8,\"tags\":[],\"n\":null}" := by decide +kernel

example : nesting awkward < 128 := by decide +kernel

/-- What other clients may write: blanks, another order of signs, escapes which are not needed. -/
example : read (str% " [ 1.50e2 , \"\\u00e9\\ud83d\\ude00\\/\" ] ") = some (.arr [.num ⟨150, 0⟩, .str (str% "é😀/")]) := rfl

/-- Texts which are refused. -/
example : read (str% "[01]") = none ∧ read (str% "[1,]") = none ∧ read (str% "1 2") = none ∧ read (str% "\"\\ud83d\"") = none ∧
    read ['"', '\n', '"'] = none := ⟨rfl, rfl, rfl, rfl, rfl⟩

end Ex
end Limabean
