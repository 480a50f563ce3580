/-
C47: the launcher picks the right runtime and passes on all arguments. The local root is not escaped: false for paths with quotes or
backslashes.
-/
import Verif.Server.Launcher
import Mathlib.Data.List.Basic

namespace Limabean

open Launcher

/-- What the launcher is to run, in order of precedence. -/
inductive Spec.Source
  | localRoot (path : Str)
  | uberjar (path : Str)
  | published (version : Str)
deriving DecidableEq

/-- The local root, or else the uberjar of the environment, or else that of the build, or else the published version. -/
def Spec.source (c : Config) : Spec.Source :=
  ((c.env (str% "LIMABEAN_CLJ_LOCAL_ROOT")).map Spec.Source.localRoot
    <|> (c.env (str% "LIMABEAN_UBERJAR")).map Spec.Source.uberjar
    <|> c.uberjarBuildtime.map Spec.Source.uberjar).getD (.published c.version)

/-- The extra dependencies. -/
def Spec.extra (c : Config) : Option Str := c.env (str% "LIMABEAN_CLJ_DEPS")

/-- The extra dependencies after a space, if any. -/
def Spec.extraText (c : Config) : Str := ((Spec.extra c).map fun s => str% " " ++ s).getD []

/-- The command line without the user's arguments. -/
def Spec.prefixOf (c : Config) : Spec.Source → List Str
  | .uberjar path => [str% "java", str% "--enable-native-access=ALL-UNNAMED", str% "-jar", path]
  | .localRoot path => [str% "clojure", str% "-J--enable-native-access=ALL-UNNAMED", str% "-Sdeps",
      str% "{:deps {io.github.tesujimath/limabean {:local/root \"" ++ path ++ str% "\"}" ++ Spec.extraText c ++ str% "}}",
      str% "-M", str% "-m", str% "limabean.main"]
  | .published version => [str% "clojure", str% "-J--enable-native-access=ALL-UNNAMED", str% "-Sdeps",
      str% "{:deps {io.github.tesujimath/limabean {:mvn/version \"" ++ version ++ str% "\"}" ++ Spec.extraText c ++ str% "}}",
      str% "-M", str% "-m", str% "limabean.main"]

open Spec

/-- C47: unless the first argument is `health`, exactly one command is run: the one of the first configured source, followed by all
arguments in order. -/
theorem C47_command (c : Config) (name : Str) (args : List Str) (h : args.head? ≠ some (str% "health")) :
    ∃ cmd, (main c (name :: args)).action = .run cmd ∧ cmd.program :: cmd.args = prefixOf c (source c) ++ args := by
  have h' : ((name :: args)[1]? == some (str% "health")) = false := by
    rw [beq_eq_false_iff_ne]
    cases args with
    | nil => simp
    | cons a as => simpa using h
  refine ⟨(fromEnv c).1.command args, ?_, ?_⟩
  · unfold main
    simp only [h']
  · unfold fromEnv source prefixOf extraText extra
    cases h1 : c.env (str% "LIMABEAN_CLJ_LOCAL_ROOT") with
    | some r =>
      cases h4 : c.env (str% "LIMABEAN_CLJ_DEPS") <;> simp [Runtime.command, Runtime.ofCoord]
    | none =>
      cases h2 : c.env (str% "LIMABEAN_UBERJAR") with
      | some r => simp [Runtime.command]
      | none =>
        cases h3 : c.uberjarBuildtime with
        | some r => simp [Runtime.command]
        | none => cases h4 : c.env (str% "LIMABEAN_CLJ_DEPS") <;> simp [Runtime.command, Runtime.ofCoord]

/-- C47: the warning is given exactly if there are extra dependencies but an uberjar is run. -/
theorem C47_warning (c : Config) (argv : List Str) :
    (main c argv).warning = true ↔ (∃ s, extra c = some s) ∧ ∃ path, source c = .uberjar path := by
  have : (main c argv).warning = (fromEnv c).2 := by
    unfold main
    dsimp only
    split
    · rfl
    · split <;> rfl
  rw [this]
  unfold fromEnv source extra
  cases h1 : c.env (str% "LIMABEAN_CLJ_LOCAL_ROOT") with
  | some r => simp
  | none =>
    cases h2 : c.env (str% "LIMABEAN_UBERJAR") with
    | some r => simp [Option.isSome_iff_exists]
    | none =>
      cases h3 : c.uberjarBuildtime with
      | some r => simp [Option.isSome_iff_exists]
      | none => simp

/-- C47: the health check is for the runtime which would be run: java exactly for an uberjar. -/
theorem C47_health (c : Config) (name : Str) (rest : List Str) :
    ∃ r, (main c (name :: str% "health" :: rest)).action = .health r ∧
      ((∃ path, source c = .uberjar path) ↔ ∃ path, r = .java path) ∧ ∀ path, r = .java path → source c = .uberjar path := by
  refine ⟨(fromEnv c).1, by unfold main; simp, ?_⟩
  unfold fromEnv source
  cases h1 : c.env (str% "LIMABEAN_CLJ_LOCAL_ROOT") with
  | some r => simp [Runtime.ofCoord]
  | none =>
    cases h2 : c.env (str% "LIMABEAN_UBERJAR") with
    | some r => simp
    | none =>
      cases h3 : c.uberjarBuildtime with
      | some r => simp
      | none => simp [Runtime.ofCoord]

/-- C47: version and command are printed on demand, and the arguments which ask for them are passed on as well (`C47_command`). -/
theorem C47_prints (c : Config) (name : Str) (args : List Str) (h : args.head? ≠ some (str% "health")) :
    ((main c (name :: args)).version = true ↔ str% "--version" ∈ args) ∧
    ((main c (name :: args)).verbose = true ↔ str% "-v" ∈ args ∨ str% "--verbose" ∈ args) := by
  have h' : ((name :: args)[1]? == some (str% "health")) = false := by
    rw [beq_eq_false_iff_ne]
    cases args with
    | nil => simp
    | cons a as => simpa using h
  unfold main
  simp only [h']
  constructor
  · simp only [List.any_eq_true, beq_iff_eq, exists_eq_right]
  · simp only [List.any_eq_true, Bool.or_eq_true, beq_iff_eq]
    constructor
    · rintro ⟨a, ha, rfl | rfl⟩
      · exact Or.inl ha
      · exact Or.inr ha
    · rintro (ha | ha)
      · exact ⟨_, ha, Or.inl rfl⟩
      · exact ⟨_, ha, Or.inr rfl⟩

/-- C47: it panics only without even a program name. -/
theorem C47_panic (c : Config) (argv : List Str) : (main c argv).action = .panic ↔ argv = [] := by
  unfold main
  cases argv with
  | nil => simp
  | cons a as =>
    dsimp only
    split <;> simp

/-- Reading a string of Clojure's notation, after the opening quote: the string and the rest. -/
def Spec.readString : List Char → Option (Str × List Char)
  | [] => none
  | '"' :: rest => some ([], rest)
  | '\\' :: '"' :: rest => (Spec.readString rest).map fun r => ('"' :: r.1, r.2)
  | '\\' :: '\\' :: rest => (Spec.readString rest).map fun r => ('\\' :: r.1, r.2)
  | '\\' :: 'n' :: rest => (Spec.readString rest).map fun r => ('\n' :: r.1, r.2)
  | '\\' :: 't' :: rest => (Spec.readString rest).map fun r => ('\t' :: r.1, r.2)
  | '\\' :: 'r' :: rest => (Spec.readString rest).map fun r => ('\r' :: r.1, r.2)
  | '\\' :: _ => none
  | c :: rest => (Spec.readString rest).map fun r => (c :: r.1, r.2)

/-- The dependencies, read as Clojure does up to the local root. -/
def Spec.rootRead (deps : Str) : Option Str :=
  (stripPrefix deps (str% "{:deps {io.github.tesujimath/limabean {:local/root \"")).bind fun s => (readString s).map (·.1)

theorem readString_plain (p rest : Str) (h : ∀ c ∈ p, c ≠ '"' ∧ c ≠ '\\') : readString (p ++ '"' :: rest) = some (p, rest) := by
  induction p with
  | nil => simp [readString]
  | cons c p ih =>
    have hc := h c (by simp)
    rw [List.cons_append, readString.eq_def]
    split
    · simp_all
    · simp_all
    all_goals first
      | (rename_i heq; simp only [List.cons.injEq] at heq; exact absurd heq.1 hc.2)
      | skip
    rename_i heq
    simp only [List.cons.injEq] at heq
    obtain ⟨rfl, rfl⟩ := heq
    rw [ih fun x hx => h x (by simp [hx])]
    rfl

/-- C47, partial: the runtime reads back the configured local root, if that has no quotes and no backslashes. -/
theorem C47_root_read_partial (c : Config) (root : Str) (h : c.env (str% "LIMABEAN_CLJ_LOCAL_ROOT") = some root)
    (hp : ∀ x ∈ root, x ≠ '"' ∧ x ≠ '\\') : ∃ deps, (fromEnv c).1 = .clojure deps ∧ rootRead deps = some root := by
  unfold fromEnv
  rw [h]
  refine ⟨_, rfl, ?_⟩
  unfold rootRead
  have : ∀ e : Str, stripPrefix (str% "{:deps {io.github.tesujimath/limabean " ++ (str% "{:local/root \"" ++ root ++ str% "\"}" ++ e) ++ str% "}}")
      (str% "{:deps {io.github.tesujimath/limabean {:local/root \"") = some (root ++ '"' :: (str% "}" ++ e ++ str% "}}")) := by
    intro e
    rw [stripPrefix_eq_some]
    simp
  rw [this]
  simp [readString_plain root _ hp]

/-- With one environment variable set. -/
def Ex.config (name value : Str) : Config := ⟨fun n => if n = name then some value else none, none, str% "1.0"⟩

/-- C47 is false for a local root with a backslash. -/
theorem C47_root_not_escaped : ¬ ∀ (c : Config) (root : Str), c.env (str% "LIMABEAN_CLJ_LOCAL_ROOT") = some root →
    ∃ deps, (fromEnv c).1 = .clojure deps ∧ rootRead deps = some root := by
  intro h
  obtain ⟨deps, h1, h2⟩ := h (Ex.config (str% "LIMABEAN_CLJ_LOCAL_ROOT") (str% "C:\\new")) (str% "C:\\new") (by decide)
  have : (fromEnv (Ex.config (str% "LIMABEAN_CLJ_LOCAL_ROOT") (str% "C:\\new"))).1 =
      .clojure (str% "{:deps {io.github.tesujimath/limabean {:local/root \"C:\\new\"}}}") := by decide
  rw [this] at h1
  cases h1
  revert h2
  decide

example : (main (Ex.config (str% "LIMABEAN_UBERJAR") (str% "x.jar")) [str% "limabean", str% "-v", str% "a.bean"]) =
    ⟨false, false, true, .run ⟨str% "java", [str% "--enable-native-access=ALL-UNNAMED", str% "-jar", str% "x.jar", str% "-v",
      str% "a.bean"]⟩⟩ := by decide

end Limabean
