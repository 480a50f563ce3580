/-
C63: the exit status says whether the program did what it was asked.

False: with `--eval` the status is 0 although the beanfile does not parse or book; the expression is evaluated on no directives
(`C63_false`). What the status does say is `C63_status`; that arguments which make no sense are refused without starting a server is
`C63_refused`; for beanfiles which load without error it holds (`C63_partial`).
-/
import Verif.Props.C64

namespace Limabean

open Clj Spec

variable {E : Ext} {L : BookLib}

namespace Spec

/-- What is asked for, in the order in which it is looked at. -/
inductive Asked (isFile : Str → Bool) (c : Cli) : Option (Str × Option Str) → Bool → Prop
  /-- help, which takes precedence over errors -/
  | help : c.options.help = true → Asked isFile c none true
  /-- the version -/
  | version : c.options.help = false → c.errors = none → c.options.version = true → Asked isFile c none true
  /-- to work on an existing beanfile -/
  | run {path : Str} : c.options.help = false → c.errors = none → c.options.version = false → c.options.beanfile = some path →
      isFile path = true → c.arguments = [] → Asked isFile c (some (path, c.options.eval)) true
  /-- errors in the arguments -/
  | errors {es : List Str} : c.options.help = false → c.errors = some es → Asked isFile c none false
  /-- no beanfile -/
  | missing : c.options.help = false → c.errors = none → c.options.version = false → c.options.beanfile = none → Asked isFile c none false
  /-- a beanfile which does not exist, or is a directory -/
  | noFile {path : Str} : c.options.help = false → c.errors = none → c.options.version = false → c.options.beanfile = some path →
      isFile path = false → Asked isFile c none false
  /-- something left over -/
  | superfluous {path : Str} : c.options.help = false → c.errors = none → c.options.version = false → c.options.beanfile = some path →
      isFile path = true → c.arguments ≠ [] → Asked isFile c none false

/-- Loading ends without an exception, possibly with an error which has been printed. -/
def LoadEnds (W : Host E L) (path : Str) : Prop :=
  ∃ s m, W.server path = some s ∧ loadBeanfile W.front s = .ok m ∧ (printErrors W.front m.pod m.error).2.2 = true

end Spec

namespace Clj

theorem asked (isFile : Str → Bool) (c : Cli) :
    (∃ msg, validateArgs isFile c = .exit msg true ∧ Asked isFile c none true) ∨
    (validateArgs isFile c = .version ∧ Asked isFile c none true) ∨
    (∃ path, validateArgs isFile c = .run path c.options.eval ∧ Asked isFile c (some (path, c.options.eval)) true) ∨
    (∃ msg, msg ≠ [] ∧ validateArgs isFile c = .exit msg false ∧ Asked isFile c none false) := by
  unfold validateArgs
  cases h1 : c.options.help with
  | true => exact .inl ⟨_, rfl, .help h1⟩
  | false =>
  cases h2 : c.errors with
  | some es => exact .inr (.inr (.inr ⟨str% "limabean: argument parsing errors:\n" ++ joined ['\n'] es, by simp, rfl, .errors h1 h2⟩))
  | none =>
  cases h3 : c.options.version with
  | true => exact .inr (.inl ⟨by simp, .version h1 h2 h3⟩)
  | false =>
  cases h4 : c.options.beanfile with
  | none => exact .inr (.inr (.inr ⟨str% "limabean: --beanfile or $LIMABEAN_BEANFILE is required", by simp, rfl, .missing h1 h2 h3 h4⟩))
  | some path =>
  cases h5 : isFile path with
  | false => exact .inr (.inr (.inr ⟨str% "limabean: no such beanfile " ++ path, by simp, by simp [h5], .noFile h1 h2 h3 h4 h5⟩))
  | true =>
  cases h6 : c.arguments with
  | nil => exact .inr (.inr (.inl ⟨path, by simp [h5], .run h1 h2 h3 h4 h5 h6⟩))
  | cons a as =>
    exact .inr (.inr (.inr ⟨str% "superfluous arguments: " ++ joined [' '] (a :: as), by simp, by simp [h5],
      .superfluous h1 h2 h3 h4 h5 (by simp [h6])⟩))

/-- At most one thing is asked for. -/
theorem asked_unique {isFile : Str → Bool} {c : Cli} {r r' : Option (Str × Option Str)} {b b' : Bool} (h : Asked isFile c r b)
    (h' : Asked isFile c r' b') : r = r' ∧ b = b' := by
  cases h <;> cases h' <;> simp_all

theorem userLoad_ends (W : Host E L) (g : Globals E) (path : Str) :
    (userLoad W.front g path (W.server path)).2.2 = true ↔ LoadEnds W path := by
  unfold userLoad LoadEnds
  cases hs : W.server path with
  | none => simp
  | some s =>
    cases hm : loadBeanfile W.front s with
    | error p => simp [hm]
    | ok m =>
      by_cases h : (printErrors W.front m.pod m.error).2.2 = true <;> simp [hm, h]

end Clj

/-- C63, arguments which make no sense: the status is 1, a message is printed, nothing else is, no server is started and nothing is
evaluated. -/
theorem C63_refused (W : Host E L) (c : Cli) (h : Asked W.isFile c none false) :
    ∃ msg, msg ≠ [] ∧ appMain W c = { status := 1, err := [.message msg] } := by
  rcases asked W.isFile c with ⟨msg, -, h'⟩ | ⟨-, h'⟩ | ⟨path, -, h'⟩ | ⟨msg, hm, he, -⟩
  · exact absurd (asked_unique h h').2 (by simp)
  · exact absurd (asked_unique h h').2 (by simp)
  · exact absurd (asked_unique h h').2 (by simp)
  · exact ⟨msg, hm, by simp [appMain, he]⟩

/-- C63, help and version: the status is 0, no server is started and nothing is evaluated. -/
theorem C63_info (W : Host E L) (c : Cli) (h : Asked W.isFile c none true) :
    (appMain W c).status = 0 ∧ (appMain W c).started = none ∧ (appMain W c).evaluated = none := by
  rcases asked W.isFile c with ⟨msg, he, -⟩ | ⟨he, -⟩ | ⟨path, -, h'⟩ | ⟨msg, -, -, h'⟩
  · simp [appMain, he]
  · simp [appMain, he]
  · exact absurd (asked_unique h h').1 (by simp)
  · exact absurd (asked_unique h h').2 (by simp)

theorem joined_intercalate (sep : Str) (l : List Str) : joined sep l = List.intercalate sep l := by
  induction l with
  | nil => rfl
  | cons s l ih =>
    cases l with
    | nil => simp [joined, List.intercalate]
    | cons t l => rw [joined, ih, List.intercalate_cons_cons, List.append_assoc]; simp

/-- C63, what is told: all errors in the arguments, one on a line; the beanfile which is not there; what is left over; and with help, the
summary of the options is the end of the text. -/
theorem C63_told (W : Host E L) (c : Cli) :
    (c.options.help = true → ∃ pre, appMain W c = { status := 0, err := [.message (pre ++ '\n' :: c.summary)] }) ∧
    (∀ es, c.options.help = false → c.errors = some es →
      appMain W c = { status := 1, err := [.message (str% "limabean: argument parsing errors:" ++ '\n' :: List.intercalate ['\n'] es)] }) ∧
    (∀ path, c.options.help = false → c.errors = none → c.options.version = false → c.options.beanfile = some path →
      (W.isFile path = false → appMain W c = { status := 1, err := [.message (str% "limabean: no such beanfile " ++ path)] }) ∧
      (W.isFile path = true → c.arguments ≠ [] →
        appMain W c = { status := 1, err := [.message (str% "superfluous arguments: " ++ List.intercalate [' '] c.arguments)] })) := by
  refine ⟨fun h => ⟨str% "limabean: usage: limabean [options]\n\nOptions:", ?_⟩, fun es h1 h2 => ?_, fun path h1 h2 h3 h4 => ⟨fun h5 => ?_, fun h5 h6 => ?_⟩⟩
  · simp [appMain, validateArgs, h, joined]
  · simp [appMain, validateArgs, h1, h2, joined_intercalate]
  · simp [appMain, validateArgs, h1, h2, h3, h4, h5]
  · have : c.arguments.isEmpty = false := by simpa using h6
    simp [appMain, validateArgs, h1, h2, h3, h4, h5, this, joined_intercalate]

/-- What the status says: it is 0 or 1, and 1 exactly if the arguments make no sense, or there is an expression which cannot be read, or
loading throws, or evaluating the expression throws. -/
theorem C63_status (W : Host E L) (c : Cli) :
    ((appMain W c).status = 0 ∨ (appMain W c).status = 1) ∧ ((appMain W c).status = 1 ↔ Asked W.isFile c none false ∨
      ∃ path text, Asked W.isFile c (some (path, some text)) true ∧
        (W.read text = none ∨ ¬ LoadEnds W path ∨ ∃ e g, (appMain W c).evaluated = some (e, g) ∧ (W.eval e g).2 = false)) := by
  rcases asked W.isFile c with ⟨msg, he, h⟩ | ⟨he, h⟩ | ⟨path, he, h⟩ | ⟨msg, hm, he, h⟩
  · refine ⟨by simp [appMain, he], ⟨by simp [appMain, he], ?_⟩⟩
    rintro (h' | ⟨path, text, h', -⟩)
    · exact absurd (asked_unique h h').2 (by simp)
    · exact absurd (asked_unique h h').1 (by simp)
  · refine ⟨by simp [appMain, he], ⟨by simp [appMain, he], ?_⟩⟩
    rintro (h' | ⟨path, text, h', -⟩)
    · exact absurd (asked_unique h h').2 (by simp)
    · exact absurd (asked_unique h h').1 (by simp)
  · cases hev : c.options.eval with
    | none =>
      rw [hev] at he h
      refine ⟨by simp [appMain, he, repl], ⟨by simp [appMain, he, repl], ?_⟩⟩
      rintro (h' | ⟨path, text, h', -⟩)
      · exact absurd (asked_unique h h').2 (by simp)
      · exact absurd (asked_unique h h').1 (by simp)
    | some text =>
      rw [hev] at he h
      have e : appMain W c = tryEval W path text := by simp [appMain, he]
      have uniq : ∀ {p : Prop}, (Asked W.isFile c none false ∨ ∃ path' text', Asked W.isFile c (some (path', some text')) true ∧
          (W.read text' = none ∨ ¬ LoadEnds W path' ∨ p)) ↔ (W.read text = none ∨ ¬ LoadEnds W path ∨ p) := by
        intro p
        constructor
        · rintro (h' | ⟨path', text', h', hx⟩)
          · exact absurd (asked_unique h h').2 (by simp)
          · obtain ⟨h1, -⟩ := asked_unique h h'
            simp only [Option.some.injEq, Prod.mk.injEq] at h1
            obtain ⟨rfl, rfl⟩ := h1
            exact hx
        · exact fun hx => .inr ⟨path, text, h, hx⟩
      rw [e, uniq, ← userLoad_ends W {} path]
      unfold tryEval
      cases hr : W.read text with
      | none => simp
      | some x =>
        obtain ⟨x, rest⟩ := x
        dsimp only
        rcases hl : userLoad W.front {} path (W.server path) with ⟨g, lines, ok⟩
        cases ok with
        | false => simp
        | true =>
          cases hb : (W.eval x g).2 <;> simp [hb]
  · refine ⟨by simp [appMain, he], ⟨fun _ => .inl h, by simp [appMain, he]⟩⟩

/-- C63 for beanfiles which load without error: given an expression, the status is 0 if and only if the expression can be read and
evaluating it on the ledger does not throw; it finds the variables of the ledger, with its directives. Missing: beanfiles with errors, for
which it is false (`C63_false`). -/
theorem C63_partial (W : Host E L) (c : Cli) {path text : Str} (h : Asked W.isFile c (some (path, some text)) true) {s : Server E}
    {m : LoadedBeans E} (hs : W.server path = some s) (hm : loadBeanfile W.front s = .ok m) (he : m.error = none) :
    ∃ g : Globals E, g.beans = some m ∧ g.directives = m.directives ∧ g.directives.isSome = true ∧
      ((appMain W c).status = 0 ↔ ∃ e rest, W.read text = some (e, rest) ∧ (W.eval e g).2 = true) ∧
      (∀ e g', (appMain W c).evaluated = some (e, g') → g' = g) := by
  obtain ⟨-, ds, r, h4, -⟩ := (load_final W.front hm).2 he
  have hu : userLoad W.front {} path (W.server path) = (Globals.assign {} (some m),
      [.loaded (m.rawDirectives.getD []).length path, .result (m.directives.getD []).length], true) := by
    obtain ⟨_, _, _, _, _, _, _, _, _, _, _, er⟩ := m
    change er = none at he
    subst he
    simp only [userLoad, hs, hm]
    rfl
  have hv : validateArgs W.isFile c = .run path (some text) := by
    rcases asked W.isFile c with ⟨msg, -, h'⟩ | ⟨-, h'⟩ | ⟨path', hx, h'⟩ | ⟨msg, -, -, h'⟩
    · exact absurd (asked_unique h h').1 (by simp)
    · exact absurd (asked_unique h h').1 (by simp)
    · obtain ⟨h1, -⟩ := asked_unique h h'
      simp only [Option.some.injEq, Prod.mk.injEq] at h1
      rw [hx, h1.1, h1.2]
    · exact absurd (asked_unique h h').1 (by simp)
  have e : appMain W c = tryEval W path text := by simp [appMain, hv]
  refine ⟨Globals.assign {} (some m), rfl, by simp [Globals.assign, h4], rfl, ?_⟩
  rw [e]
  unfold tryEval
  cases hr : W.read text with
  | none => simp
  | some x =>
    obtain ⟨x, rest⟩ := x
    simp only [hu]
    cases hb : (W.eval x (Globals.assign {} (some m))).2 <;> simp [hb]
    all_goals rintro _ _ - rfl; rfl

namespace Ex

/-- Beanfiles by name; the only expression is `(count *directives*)`. -/
def host : Host Toy.ext Toy.lib where
  front := front
  isFile p := p ∈ [str% "good", str% "unparsable", str% "unbookable", str% "noserver"]
  server p := if p = str% "good" then some (Toy.server ledger)
    else if p = str% "unparsable" then some unparsable
    else if p = str% "unbookable" then some (Toy.server unopened)
    else none
  Expr := Unit
  read t := if t = str% "(count *directives*)" then some ((), []) else none
  eval _ g := ([bars ((g.directives.getD []).length)], true)
  version := str% "1"
where bars (n : Nat) : Str := List.replicate n '|'

/-- `--beanfile path --eval "(count *directives*)"` -/
def counting (path : Str) : Cli := { options := { beanfile := some path, eval := some (str% "(count *directives*)") } }

end Ex

/-- C63 is false: the beanfile does not parse, or does not book; the expression is evaluated on no directives, and the status is 0. -/
theorem C63_false : ∀ p ∈ [str% "unparsable", str% "unbookable"],
    ((appMain Ex.host (Ex.counting p)).status, (appMain Ex.host (Ex.counting p)).out) = (0, [[]]) ∧
    (match Ex.host.server p with
      | some s => (match loadBeanfile Ex.front s with | .ok m => m.error.isSome | .error _ => false)
      | none => false) = true := by
  decide +kernel

/-- Non-vacuity: a ledger which loads; one for which no server can be started; arguments which make no sense. -/
example : ((appMain Ex.host (Ex.counting (str% "good"))).status, (appMain Ex.host (Ex.counting (str% "good"))).out) =
      (0, [List.replicate Ex.out.length '|']) ∧ Ex.out.length ≠ 0 ∧
    (appMain Ex.host (Ex.counting (str% "noserver"))).status = 1 ∧
    (appMain Ex.host (Ex.counting (str% "nofile"))).status = 1 ∧ (appMain Ex.host (Ex.counting (str% "nofile"))).started = none ∧
    Asked Ex.host.isFile (Ex.counting (str% "good")) (some (str% "good", some (str% "(count *directives*)"))) true ∧
    Asked Ex.host.isFile (Ex.counting (str% "nofile")) none false ∧
    (appMain Ex.host { options := {}, errors := some [str% "a", str% "b"] }).err = [.message (str% "limabean: argument parsing errors:\na\nb")] :=
  ⟨by decide +kernel, by decide +kernel, by decide +kernel, by decide +kernel, by decide +kernel,
    .run rfl rfl rfl rfl (by decide) rfl, .noFile rfl rfl rfl rfl (by decide), by decide +kernel⟩

end Limabean
