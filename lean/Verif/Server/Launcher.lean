/-
The launcher `limabean`: rust/src/bin/limabean/run.rs, main.rs.

Not modelled: running the command (exec), the health check itself (health.rs) beyond which runtime it checks, the log subscriber.
-/
import Verif.Basic.Str

namespace Limabean
namespace Launcher

/-- run.rs:3-6. -/
inductive Runtime
  | java (uberjar : Str)
  | clojure (deps : Str)
deriving DecidableEq

/-- What is fixed when the launcher starts: environment variables which are set and are Unicode (`std::env::var(..).ok()`), and those
of the build (run.rs:11-12). -/
structure Config where
  env : Str → Option Str
  uberjarBuildtime : Option Str
  version : Str

/-- run.rs:27-32. -/
def Runtime.ofCoord (coord : Str) : Runtime :=
  .clojure (str% "{:deps {io.github.tesujimath/limabean " ++ coord ++ str% "}}")

/-- run.rs:38-64. The second component says whether the warning about ignored dependencies is printed (run.rs:19-24). -/
def fromEnv (c : Config) : Runtime × Bool :=
  let extraDeps := (c.env (str% "LIMABEAN_CLJ_DEPS")).map fun s => ' ' :: s
  match c.env (str% "LIMABEAN_CLJ_LOCAL_ROOT") with
  | some root => (.ofCoord (str% "{:local/root \"" ++ root ++ str% "\"}" ++ extraDeps.getD []), false)
  | none =>
    match c.env (str% "LIMABEAN_UBERJAR") with
    | some uberjar => (.java uberjar, extraDeps.isSome)
    | none =>
      match c.uberjarBuildtime with
      | some uberjar => (.java uberjar, extraDeps.isSome)
      | none => (.ofCoord (str% "{:mvn/version \"" ++ c.version ++ str% "\"}" ++ extraDeps.getD []), false)

/-- A command: program and arguments. -/
structure Command where
  program : Str
  args : List Str
deriving DecidableEq

/-- run.rs:66-98, with the options of run.rs:15-17. -/
def Runtime.command (r : Runtime) (args : List Str) : Command :=
  match r with
  | .java uberjar => ⟨str% "java", [str% "--enable-native-access=ALL-UNNAMED", str% "-jar", uberjar] ++ args⟩
  | .clojure deps => ⟨str% "clojure",
      [str% "-J--enable-native-access=ALL-UNNAMED", str% "-Sdeps", deps, str% "-M", str% "-m", str% "limabean.main"] ++ args⟩

/-- What the launcher does in the end. -/
inductive Action
  | run (cmd : Command)
  | health (r : Runtime)
  | panic
deriving DecidableEq

/-- Everything observable: the warning, whether the version and the command are printed (run.rs:116-127), and the action. -/
structure Outcome where
  warning : Bool
  version : Bool
  verbose : Bool
  action : Action
deriving DecidableEq

/-- main.rs:3-17, run.rs:115-130. `argv` includes the name of the program; slicing an empty one panics. -/
def main (c : Config) (argv : List Str) : Outcome :=
  let (runtime, warning) := fromEnv c
  match argv[1]? == some (str% "health") with
  | true => ⟨warning, false, false, .health runtime⟩
  | false =>
    match argv with
    | [] => ⟨warning, false, false, .panic⟩
    | _ :: args =>
      ⟨warning, args.any (· == str% "--version"), args.any (fun a => a == str% "-v" || a == str% "--verbose"),
        .run (runtime.command args)⟩

end Launcher
end Limabean
