/-
C76: `limabean health` succeeds exactly if what the launcher runs works and is there; and no call of the launcher which fails looks like
a success.

False for Clojure: the status of `clojure --version` is not looked at (`C76_clojure_false`).
-/
import Verif.Server.Health
import Verif.Props.C47

namespace Limabean

open Launcher Spec

/-- Does a program answer when asked for its version? -/
def Spec.Answers (y : System) (program : Str) : Prop := ∃ stdout stderr, y.output program [str% "--version"] = .ran true stdout stderr

/-- Can a program be started at all? -/
def Spec.Starts (y : System) (program : Str) : Prop := ∀ e, y.output program [str% "--version"] ≠ .failed e

/-- What has to work for a source. -/
def Spec.Works (y : System) : Spec.Source → Prop
  | .uberjar path => Answers y (str% "java") ∧ y.tryExists path = .ok true
  | .localRoot _ => Answers y (str% "clojure")
  | .published _ => Answers y (str% "clojure")

/-- The call succeeds. -/
def Spec.Succeeds (e : Ending) : Prop := ∃ lines, e = .exited 0 lines

theorem textArgs_some (args : List Str) : textArgs (args.map some) = some args := by
  induction args with
  | nil => rfl
  | cons a as ih => simp [textArgs, ih]

theorem textArgs_none {argv : List (Option Str)} : textArgs argv = none ↔ none ∈ argv := by
  induction argv with
  | nil => simp [textArgs]
  | cons a as ih => cases a <;> simp [textArgs, ih]

theorem textArgs_eq {argv : List (Option Str)} {args : List Str} (h : textArgs argv = some args) : argv = args.map some := by
  induction argv generalizing args with
  | nil => simp [textArgs] at h; subst h; rfl
  | cons a as ih =>
    cases a with
    | none => simp [textArgs] at h
    | some a =>
      simp only [textArgs, Option.map_eq_some_iff] at h
      obtain ⟨l, h1, rfl⟩ := h
      simp [ih h1]

theorem checkJava_zero (y : System) (path : Str) (v : Bool) :
    (∃ lines, checkJava y path v = .exited 0 lines) ↔ Answers y (str% "java") ∧ y.tryExists path = .ok true := by
  unfold checkJava javaHealth Answers
  cases h : y.output (str% "java") [str% "--version"] with
  | failed e => simp
  | ran s o e =>
    cases s with
    | false => simp
    | true =>
      cases h2 : y.tryExists path with
      | error e => simp
      | ok b => cases b <;> simp

theorem checkClojure_zero (y : System) (v : Bool) :
    (∃ lines, checkClojure y v = .exited 0 lines) ↔ Starts y (str% "clojure") := by
  unfold checkClojure clojureHealth Starts
  cases h : y.output (str% "clojure") [str% "--version"] <;> simp

theorem launch_health (y : System) (c : Config) (name : Str) (rest : List Str) :
    launch y c ((name :: str% "health" :: rest).map some) = check y (fromEnv c).1 true := by
  have : (main c (name :: str% "health" :: rest)).action = .health (fromEnv c).1 := by
    unfold main
    simp
  unfold launch
  rw [textArgs_some]
  dsimp only
  rw [this]

theorem fromEnv_uberjar {c : Config} {path : Str} (h : Spec.source c = .uberjar path) : (fromEnv c).1 = .java path := by
  unfold fromEnv
  unfold Spec.source at h
  cases h1 : c.env (str% "LIMABEAN_CLJ_LOCAL_ROOT") with
  | some r => simp [h1] at h
  | none =>
    cases h2 : c.env (str% "LIMABEAN_UBERJAR") with
    | some r => simp [h1, h2] at h; simp [h]
    | none =>
      cases h3 : c.uberjarBuildtime with
      | some r => simp [h1, h2, h3] at h; simp [h]
      | none => simp [h1, h2, h3] at h

theorem fromEnv_clojure {c : Config} (h : ∀ path, Spec.source c ≠ .uberjar path) : ∃ deps, (fromEnv c).1 = .clojure deps := by
  unfold fromEnv
  unfold Spec.source at h
  cases h1 : c.env (str% "LIMABEAN_CLJ_LOCAL_ROOT") with
  | some r => exact ⟨_, rfl⟩
  | none =>
    cases h2 : c.env (str% "LIMABEAN_UBERJAR") with
    | some r => simp [h1, h2] at h
    | none =>
      cases h3 : c.uberjarBuildtime with
      | some r => simp [h1, h2, h3] at h
      | none => exact ⟨_, rfl⟩

/-- C76: `health` succeeds exactly if what the launcher runs works, whatever the further arguments; for Clojure if the program starts,
which is all that is known of it. -/
theorem C76_partial (y : System) (c : Config) (name : Str) (rest : List Str) :
    (∀ path, Spec.source c = .uberjar path →
      (Succeeds (launch y c ((name :: str% "health" :: rest).map some)) ↔ Works y (Spec.source c))) ∧
    ((∀ path, Spec.source c ≠ .uberjar path) →
      (Succeeds (launch y c ((name :: str% "health" :: rest).map some)) ↔ Starts y (str% "clojure"))) := by
  rw [launch_health]
  constructor
  · intro path hp
    rw [fromEnv_uberjar hp, hp]
    exact checkJava_zero y path true
  · intro hp
    obtain ⟨deps, hd⟩ := fromEnv_clojure hp
    rw [hd]
    exact checkClojure_zero y true

/-- C76: whatever works is not reported as broken. -/
theorem C76_complete (y : System) (c : Config) (name : Str) (rest : List Str) (h : Works y (Spec.source c)) :
    Succeeds (launch y c ((name :: str% "health" :: rest).map some)) := by
  have hs : ∀ p, Answers y p → Starts y p := by
    rintro p ⟨o, e, h⟩ x hx
    rw [h] at hx
    cases hx
  obtain ⟨h1, h2⟩ := C76_partial y c name rest
  cases hc : Spec.source c with
  | uberjar path => exact (h1 path hc).2 h
  | localRoot r => exact (h2 (by simp [hc])).2 (hs _ (by rw [hc] at h; exact h))
  | published v => exact (h2 (by simp [hc])).2 (hs _ (by rw [hc] at h; exact h))

/-- C76: every other call is replaced by the command of C47, or else ends with status 1 and says which program could not be run and
why; and `health` ends with status 0 or 1. So of a call other than `health` the launcher itself never reports success. -/
theorem C76_ends (y : System) (c : Config) (name : Str) (args : List Str) :
    (args.head? ≠ some (str% "health") → ∃ cmd, cmd.program :: cmd.args = prefixOf c (Spec.source c) ++ args ∧
      launch y c ((name :: args).map some) =
        match y.exec cmd with
        | none => .replaced cmd
        | some e => .exited 1 [str% "limabean can't run " ++ cmd.program ++ str% ": " ++ e]) ∧
    (args.head? = some (str% "health") → ∃ status lines, status ≤ 1 ∧
      launch y c ((name :: args).map some) = .exited status lines) := by
  constructor
  · intro h
    obtain ⟨cmd, h1, h2⟩ := C47_command c name args h
    refine ⟨cmd, h2, ?_⟩
    unfold launch
    rw [textArgs_some]
    dsimp only
    rw [h1]
    dsimp only [runOrFail]
    cases y.exec cmd <;> rfl
  · intro h
    cases args with
    | nil => simp at h
    | cons a rest =>
      simp only [List.head?_cons, Option.some.injEq] at h
      subst h
      rw [launch_health]
      cases (fromEnv c).1 with
      | java path =>
        simp only [check, checkJava]
        cases javaHealth y with
        | bad r => exact ⟨1, _, by omega, rfl⟩
        | good d =>
          dsimp only
          cases y.tryExists path with
          | error e => exact ⟨1, _, by omega, rfl⟩
          | ok b => cases b <;> exact ⟨_, _, by omega, rfl⟩
      | clojure d =>
        simp only [check, checkClojure]
        cases clojureHealth y with
        | bad r => exact ⟨1, _, by omega, rfl⟩
        | good d => exact ⟨0, _, by omega, rfl⟩

/-- C76: the launcher panics exactly if it is not even told its name, or an argument is not Unicode. -/
theorem C76_panics (y : System) (c : Config) (argv : List (Option Str)) :
    launch y c argv = .panicked ↔ argv = [] ∨ none ∈ argv := by
  cases h : textArgs argv with
  | none => simp [launch, h, textArgs_none.1 h]
  | some args =>
    have hn : none ∉ argv := fun hc => by rw [textArgs_none.2 hc] at h; cases h
    have he := textArgs_eq h
    simp only [hn, or_false]
    subst he
    cases args with
    | nil => simp [launch, textArgs, (C47_panic c []).2 rfl]
    | cons a as =>
      have h2 := C76_ends y c a as
      constructor
      · intro hp
        exfalso
        by_cases hh : as.head? = some (str% "health")
        · obtain ⟨s, l, -, e⟩ := h2.2 hh
          rw [e] at hp
          cases hp
        · obtain ⟨cmd, -, e⟩ := h2.1 hh
          rw [e] at hp
          cases hx : y.exec cmd <;> simp [hx] at hp
      · simp

/-- C76: if health succeeds then any other call starts the program; for Clojure exactly then. Assumed of the system: whether a program
can be started does not depend on its arguments. -/
theorem C76_starts (y : System) (hy : ∀ cmd, (∃ e, y.exec cmd = some e) ↔ ¬ Starts y cmd.program) (c : Config)
    (name name' : Str) (rest args : List Str) (ha : args.head? ≠ some (str% "health"))
    (h : Succeeds (launch y c ((name :: str% "health" :: rest).map some))) :
    ∃ cmd, launch y c ((name' :: args).map some) = .replaced cmd := by
  obtain ⟨h1, h2⟩ := C76_partial y c name rest
  obtain ⟨cmd, hc, hl⟩ := (C76_ends y c name' args).1 ha
  refine ⟨cmd, ?_⟩
  rw [hl]
  have hs : Starts y cmd.program := by
    cases hsrc : Spec.source c with
    | uberjar path =>
      rw [hsrc] at hc
      have hp : cmd.program = str% "java" := by simp only [prefixOf, List.cons_append, List.cons.injEq] at hc; exact hc.1
      rw [hp]
      have := (h1 path hsrc).1 h
      rw [hsrc] at this
      obtain ⟨⟨o, e, h⟩, -⟩ := this
      intro x hx
      rw [h] at hx
      cases hx
    | localRoot r =>
      rw [hsrc] at hc
      have hp : cmd.program = str% "clojure" := by simp only [prefixOf, List.cons_append, List.cons.injEq] at hc; exact hc.1
      rw [hp]
      exact (h2 (by simp [hsrc])).1 h
    | published v =>
      rw [hsrc] at hc
      have hp : cmd.program = str% "clojure" := by simp only [prefixOf, List.cons_append, List.cons.injEq] at hc; exact hc.1
      rw [hp]
      exact (h2 (by simp [hsrc])).1 h
  cases hx : y.exec cmd with
  | none => rfl
  | some e => exact absurd hs ((hy cmd).1 ⟨e, hx⟩)

/-- A system on which Clojure is there but broken. -/
def Ex.brokenClojure : System :=
  ⟨fun p _ => if p = str% "clojure" then .ran false [] (str% "no java\n") else .failed (str% "not found"), fun _ => .ok false,
    fun cmd => if cmd.program = str% "clojure" then none else some (str% "not found")⟩

/-- Does a line contain the text? -/
def Spec.Mentions (lines : List Str) (w : Str) : Prop := ∃ line ∈ lines, w <:+: line

/-- A piece of what a program wrote, within a line. -/
def Spec.Piece (w text : Str) : Prop := '\n' ∉ w ∧ w <:+: text

theorem oneLine_append (a b : Str) : oneLine (a ++ b) = oneLine a ++ oneLine b := by
  induction a with
  | nil => rfl
  | cons c a ih => simp [oneLine, ih]

theorem oneLine_piece {w : Str} (h : '\n' ∉ w) : oneLine w = w := by
  induction w with
  | nil => rfl
  | cons c w ih =>
    simp only [List.mem_cons, not_or] at h
    simp [oneLine, ih h.2, Ne.symm h.1]

theorem piece_oneLine {w text : Str} (h : Piece w text) : w <:+: oneLine text := by
  obtain ⟨hn, a, b, rfl⟩ := h
  refine ⟨Launcher.oneLine a, Launcher.oneLine b, ?_⟩
  rw [oneLine_append, oneLine_append, oneLine_piece hn]

/-- C76: health tells what it found: of a program which does not start why, of one which fails all that it complains of (Java; of
Clojure see above), of one which answers all that it answers, and of an uberjar its path, and why it cannot be looked for. -/
theorem C76_tells (y : System) (c : Config) (name : Str) (rest : List Str) (status : Nat) (lines : List Str)
    (h : launch y c ((name :: str% "health" :: rest).map some) = .exited status lines) :
    (∀ path, Spec.source c = .uberjar path →
      (∀ e, y.output (str% "java") [str% "--version"] = .failed e → Mentions lines e) ∧
      (∀ out err, y.output (str% "java") [str% "--version"] = .ran false out err → ∀ w, Piece w err → Mentions lines w) ∧
      (∀ out err, y.output (str% "java") [str% "--version"] = .ran true out err →
        (∀ w, Piece w out → Mentions lines w) ∧ Mentions lines path ∧ ∀ e, y.tryExists path = .error e → Mentions lines e)) ∧
    ((∀ path, Spec.source c ≠ .uberjar path) →
      (∀ e, y.output (str% "clojure") [str% "--version"] = .failed e → Mentions lines e) ∧
      (∀ b out err, y.output (str% "clojure") [str% "--version"] = .ran b out err → ∀ w, Piece w out → Mentions lines w)) := by
  rw [launch_health] at h
  have inf : ∀ (a w b : Str), w <:+: a ++ (w ++ b) := fun a w b => ⟨a, b, by simp⟩
  constructor
  · intro path hp
    rw [fromEnv_uberjar hp] at h
    simp only [check, checkJava, javaHealth] at h
    cases ho : y.output (str% "java") [str% "--version"] with
    | failed e =>
      simp only [ho] at h
      cases h
      refine ⟨?_, by simp, by simp⟩
      intro e' he
      cases he
      exact ⟨_, List.mem_singleton.2 rfl, by simpa using inf (str% "limabean can't find java: ") e []⟩
    | ran ok out err =>
      cases ok with
      | false =>
        simp only [ho] at h
        cases h
        refine ⟨by simp, ?_, by simp⟩
        intro out' err' he w hw
        cases he
        exact ⟨_, List.mem_singleton.2 rfl, (piece_oneLine hw).trans
          (by simpa using inf (str% "limabean java: ") (oneLine err) [])⟩
      | true =>
        simp only [ho, if_true] at h
        refine ⟨by simp, by simp, ?_⟩
        intro out' err' he
        cases he
        have hout : ∀ (l : List Str) w, Piece w out → Mentions ([str% "java: " ++ oneLine out] ++ l) w := fun l w hw =>
          ⟨_, List.mem_append_left _ (List.mem_singleton.2 rfl), (piece_oneLine hw).trans ⟨str% "java: ", [], by simp⟩⟩
        have hpath : ∀ (l : List Str) (t : Str), Mentions (l ++ [str% "uberjar " ++ path ++ t]) path := fun l t =>
          ⟨_, List.mem_append_right _ (List.mem_singleton.2 rfl), ⟨str% "uberjar ", t, rfl⟩⟩
        cases hx : y.tryExists path with
        | error e =>
          simp only [hx] at h
          cases h
          refine ⟨hout _, ?_, ?_⟩
          · have := hpath [str% "java: " ++ oneLine out] (str% " not found: " ++ e)
            simpa using this
          · intro e' he
            cases he
            exact ⟨_, List.mem_append_right _ (List.mem_singleton.2 rfl), ⟨str% "uberjar " ++ path ++ str% " not found: ", [], by simp⟩⟩
        | ok b =>
          refine ⟨?_, ?_, by simp⟩
          · cases b <;> simp only [hx] at h <;> cases h <;> exact hout _
          · cases b <;> simp only [hx] at h <;> cases h
            · exact hpath _ (str% " not found")
            · simpa using hpath [str% "java: " ++ oneLine out] []
  · intro hp
    obtain ⟨deps, hd⟩ := fromEnv_clojure hp
    rw [hd] at h
    simp only [check, checkClojure, clojureHealth] at h
    cases ho : y.output (str% "clojure") [str% "--version"] with
    | failed e =>
      simp only [ho] at h
      cases h
      refine ⟨?_, by simp⟩
      intro e' he
      cases he
      exact ⟨_, List.mem_singleton.2 rfl, by simpa using inf (str% "limabean can't find clojure: ") e []⟩
    | ran ok out err =>
      simp only [ho, if_true] at h
      cases h
      refine ⟨by simp, ?_⟩
      intro b out' err' he w hw
      cases he
      exact ⟨_, List.mem_singleton.2 rfl, (piece_oneLine hw).trans ⟨str% "clojure: ", [], by simp⟩⟩

/-- C76 is false for Clojure: health says that all is well though `clojure --version` fails, and does not show what it said. -/
theorem C76_clojure_false : ¬ ∀ (y : System) (c : Config) (name : Str) (rest : List Str),
    Succeeds (launch y c ((name :: str% "health" :: rest).map some)) ↔ Works y (Spec.source c) := by
  intro h
  have := (h Ex.brokenClojure (Ex.config (str% "X") (str% "y")) (str% "limabean") []).1 ⟨[str% "clojure: "], by decide⟩
  have hs : Spec.source (Ex.config (str% "X") (str% "y")) = .published (str% "1.0") := by decide
  rw [hs] at this
  obtain ⟨o, e, h⟩ := this
  have hb : Ex.brokenClojure.output (str% "clojure") [str% "--version"] = .ran false [] (str% "no java\n") := by decide
  rw [hb] at h
  cases h

/-- A system with Java, and an uberjar. -/
def Ex.soundJava : System :=
  ⟨fun p _ => if p = str% "java" then .ran true (str% "21\n") [] else .failed (str% "not found"), fun f =>
    if f = str% "x.jar" then .ok true else .ok false, fun cmd => if cmd.program = str% "java" then none else some (str% "not found")⟩

example : launch Ex.soundJava (Ex.config (str% "LIMABEAN_UBERJAR") (str% "x.jar")) [some (str% "limabean"), some (str% "health")] =
    .exited 0 [str% "java: 21; ", str% "uberjar x.jar"] := by decide

example : launch Ex.soundJava (Ex.config (str% "LIMABEAN_UBERJAR") (str% "y.jar")) [some (str% "limabean"), some (str% "health")] =
    .exited 1 [str% "java: 21; ", str% "uberjar y.jar not found"] := by decide

example : launch Ex.soundJava (Ex.config (str% "X") (str% "y")) [some (str% "limabean"), some (str% "--beanfile"), some (str% "a")] =
    .exited 1 [str% "limabean can't run clojure: not found"] := by decide

example : ∀ cmd, (∃ e, Ex.soundJava.exec cmd = some e) ↔ ¬ Starts Ex.soundJava cmd.program := by
  intro cmd
  unfold Starts Ex.soundJava
  by_cases h : cmd.program = str% "java" <;> simp [h]

end Limabean
