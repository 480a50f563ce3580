/-
How a call of the launcher `limabean` ends: rust/src/bin/limabean/health.rs, run.rs:100-130, main.rs.

The operating system is a parameter (`System`): running a program for its output, asking whether a file exists, replacing the process.
Simplified: standard error is a list of lines; the line with the command which `--verbose` adds (run.rs:125-127), the version on
standard output and the warning of run.rs:19-24 are in `Launcher.main` only. Not modelled: the log subscriber, Windows.
-/
import Verif.Server.Launcher

namespace Limabean
namespace Launcher

/-- What `Command::output` returns: an error, or the status of the program and what it wrote (`from_utf8_lossy` applied). -/
inductive Spawned
  | failed (e : Str)
  | ran (success : Bool) (stdout stderr : Str)
deriving DecidableEq

/-- The operating system, as far as the launcher calls it. -/
structure System where
  /-- `Command::new(program).args(args).output()`. -/
  output : Str → List Str → Spawned
  /-- `Path::new(path).try_exists()`. -/
  tryExists : Str → Except Str Bool
  /-- `cmd.exec()`: no error means that the program has replaced the launcher. -/
  exec : Command → Option Str

/-- health.rs:5-9. -/
inductive Health
  | good (description : Str)
  | bad (reason : Str)
deriving DecidableEq

/-- `.replace("\n", "; ")` (health.rs:42, 85, 90). -/
def oneLine : Str → Str
  | [] => []
  | c :: s => (if c = '\n' then str% "; " else [c]) ++ oneLine s

/-- How a call of the launcher ends. -/
inductive Ending
  /-- The process is now the program. -/
  | replaced (cmd : Command)
  /-- The process has ended with a status, having written lines to standard error. -/
  | exited (status : Nat) (stderr : List Str)
  /-- A panic (status 101). -/
  | panicked
deriving DecidableEq

/-- health.rs:38-47. The status of `clojure --version` is not looked at. -/
def clojureHealth (y : System) : Health :=
  match y.output (str% "clojure") [str% "--version"] with
  | .ran _ stdout _ => .good (str% "clojure: " ++ oneLine stdout)
  | .failed e => .bad (str% "can't find clojure: " ++ e)

/-- health.rs:24-36. Returning from `main` is status 0. -/
def checkClojure (y : System) (verbose : Bool) : Ending :=
  match clojureHealth y with
  | .good description => .exited 0 (if verbose then [description] else [])
  | .bad reason => .exited 1 [str% "limabean " ++ reason]

/-- health.rs:79-96. -/
def javaHealth (y : System) : Health :=
  match y.output (str% "java") [str% "--version"] with
  | .ran true stdout _ => .good (str% "java: " ++ oneLine stdout)
  | .ran false _ stderr => .bad (str% "java: " ++ oneLine stderr)
  | .failed e => .bad (str% "can't find java: " ++ e)

/-- health.rs:49-77. -/
def checkJava (y : System) (uberjar : Str) (verbose : Bool) : Ending :=
  match javaHealth y with
  | .good description =>
    let said := if verbose then [description] else []
    match y.tryExists uberjar with
    | .ok false => .exited 1 (said ++ [str% "uberjar " ++ uberjar ++ str% " not found"])
    | .ok true => .exited 0 (said ++ if verbose then [str% "uberjar " ++ uberjar] else [])
    | .error e => .exited 1 (said ++ [str% "uberjar " ++ uberjar ++ str% " not found: " ++ e])
  | .bad reason => .exited 1 [str% "limabean " ++ reason]

/-- health.rs:11-22. -/
def check (y : System) (r : Runtime) (verbose : Bool) : Ending :=
  match r with
  | .java uberjar => checkJava y uberjar verbose
  | .clojure _ => checkClojure y verbose

/-- run.rs:101-113. -/
def runOrFail (y : System) (cmd : Command) : Ending :=
  match y.exec cmd with
  | none => .replaced cmd
  | some e => .exited 1 [str% "limabean can't run " ++ cmd.program ++ str% ": " ++ e]

/-- `std::env::args().collect()` (main.rs:10): panics if an argument is not Unicode (`none`). -/
def textArgs : List (Option Str) → Option (List Str)
  | [] => some []
  | none :: _ => none
  | some a :: as => (textArgs as).map (a :: ·)

/-- main.rs:3-17, with what `Launcher.main` decides on; health is always verbose (main.rs:13). -/
def launch (y : System) (c : Config) (argv : List (Option Str)) : Ending :=
  match textArgs argv with
  | none => .panicked
  | some args =>
    match (main c args).action with
    | .run cmd => runOrFail y cmd
    | .health r => check y r true
    | .panic => .panicked

end Launcher
end Limabean
