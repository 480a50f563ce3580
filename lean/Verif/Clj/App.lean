/-
The program: clj/src/limabean/main.clj, clj/src/limabean/app.clj, clj/src/limabean/user.clj.

What tools.cli makes of the arguments is given, as are the reader and the evaluation of expressions. Not modelled: logging, the texts of
exceptions, errors which are not exceptions (`try-eval` does not catch them). The files of `$LIMABEAN_USER_CLJ`, whose exceptions
are caught, belong to what evaluating an expression stands for.
-/
import Verif.Clj.Session

namespace Limabean
namespace Clj

variable {E : Ext} {L : BookLib}

/-- The variables of a session: clj/src/limabean/user.clj:10-21. `none` is `nil`, or for `beans` also the empty map. -/
structure Globals (E : Ext) where
  beans : Option (LoadedBeans E) := none
  directives : Option (List Data) := none
  options : Data := .nil
  registry : Option Data := none

/-- `assign-limabean-globals`: clj/src/limabean/user.clj:23-30. The entry `:options` comes with the entry `:plugins`. -/
def Globals.assign (g : Globals E) (beans : Option (LoadedBeans E)) : Globals E :=
  let directives := ((beans.bind fun m => m.directives).getD [] : List Data)
  let options := match beans with
    | some m => if m.plugins.isSome then m.options else .map []
    | none => .map []
  { g with beans := beans, directives := some directives, options := options, registry := beans.bind fun m => m.registry }

/-- A line which loading prints. -/
inductive LoadLine
  /-- the number of raw directives -/
  | loaded (n : Nat) (path : Str)
  | error (text : Str)
  /-- the number of directives -/
  | result (n : Nat)
deriving DecidableEq, Repr

/-- `load-beanfile`: clj/src/limabean/user.clj:32-47, given the server which the new process runs, or `none` if no process can be
started: the variables, the lines printed, and whether it ended without an exception. -/
def userLoad (F : Front E L) (g : Globals E) (path : Str) (s : Option (Server E)) : Globals E × List LoadLine × Bool :=
  let g := g.assign none
  match s with
  | none => (g, [], false)
  | some s => match loadBeanfile F s with
    | .error _ => (g, [], false)
    | .ok m =>
      let r := printErrors F m.pod m.error
      let lines := .loaded (m.rawDirectives.getD []).length path :: r.2.1.map LoadLine.error
      if r.2.2 then
        (g.assign (some { m with pod := r.1 }), lines ++ (if m.error.isSome then [] else [.result (m.directives.getD []).length]), true)
      else (g, lines, false)

/-- The options, with their defaults: clj/src/limabean/main.clj:11-16. -/
structure CliOptions where
  help : Bool := false
  version : Bool := false
  beanfile : Option Str := none
  eval : Option Str := none

/-- What `parse-opts` returns: clj/src/limabean/main.clj:32-33. -/
structure Cli where
  options : CliOptions
  arguments : List Str := []
  errors : Option (List Str) := none
  summary : Str := []

/-- What surrounds the program. -/
structure Host (E : Ext) (L : BookLib) where
  front : Front E L
  /-- whether there is a file of that name, and it is not a directory -/
  isFile : Str → Bool
  /-- the server which a new process runs for that beanfile; `none` if no process can be started -/
  server : Str → Option (Server E)
  /-- expressions -/
  Expr : Type
  /-- the first form of a text, and the rest of the text; `none` if reading throws -/
  read : Str → Option (Expr × Str)
  /-- the lines which evaluating an expression prints, and whether it ends without an exception -/
  eval : Expr → Globals E → List Str × Bool
  /-- the version of the program -/
  version : Str

/-- The validated arguments: clj/src/limabean/main.clj:27-52. -/
inductive Validated
  | exit (message : Str) (ok : Bool)
  | version
  | run (beanfile : Str) (eval : Option Str)
deriving DecidableEq, Repr

/-- Joining strings: `str/join`. -/
def joined (sep : Str) : List Str → Str
  | [] => []
  | [s] => s
  | s :: rest => s ++ sep ++ joined sep rest

/-- `validate-args`: clj/src/limabean/main.clj:18-52. -/
def validateArgs (isFile : Str → Bool) (c : Cli) : Validated :=
  if c.options.help then .exit (joined ['\n'] [str% "limabean: usage: limabean [options]", [], str% "Options:", c.summary]) true
  else match c.errors with
    | some es => .exit (str% "limabean: argument parsing errors:\n" ++ joined ['\n'] es) false
    | none =>
      if c.options.version then .version
      else match c.options.beanfile with
        | none => .exit (str% "limabean: --beanfile or $LIMABEAN_BEANFILE is required") false
        | some path =>
          if !isFile path then .exit (str% "limabean: no such beanfile " ++ path) false
          else if c.arguments.isEmpty then .run path c.options.eval
          else .exit (str% "superfluous arguments: " ++ joined [' '] c.arguments) false

/-- A line on the standard error. -/
inductive ErrLine
  | message (s : Str)
  | load (l : LoadLine)
  /-- the message and the data of an exception -/
  | exception
deriving DecidableEq, Repr

/-- What a run of the program comes to. -/
structure Outcome (E : Ext) (Expr : Type) where
  status : Nat
  out : List Str := []
  err : List ErrLine := []
  /-- the beanfile for which a server was started, or which was tried -/
  started : Option Str := none
  /-- the expression which was evaluated, and the variables it found -/
  evaluated : Option (Expr × Globals E) := none

/-- `try-eval`: clj/src/limabean/app.clj:21-31, with `init`: clj/src/limabean/app.clj:8-19. `read-string` reads one form and leaves the
rest of the text. The value of the expression is not printed. -/
def tryEval (W : Host E L) (path text : Str) : Outcome E W.Expr :=
  match W.read text with
  | none => { status := 1, err := [.exception] }
  | some (e, _) =>
    match userLoad W.front {} path (W.server path) with
    | (_, lines, false) => { status := 1, err := lines.map ErrLine.load ++ [.exception], started := some path }
    | (g, lines, true) =>
      let r := W.eval e g
      if r.2 then { status := 0, out := r.1, err := lines.map ErrLine.load, started := some path, evaluated := some (e, g) }
      else { status := 1, out := r.1, err := lines.map ErrLine.load ++ [.exception], started := some path, evaluated := some (e, g) }

/-- `repl`: clj/src/limabean/app.clj:39-40, up to the first prompt, and the status at the end: an exception while loading is printed, the
session goes on. -/
def repl (W : Host E L) (path : Str) : Outcome E W.Expr :=
  match userLoad W.front {} path (W.server path) with
  | (_, lines, ok) => { status := 0, err := lines.map ErrLine.load ++ (if ok then [] else [.exception]), started := some path }

/-- `-main`: clj/src/limabean/main.clj:54-67, and `run`: clj/src/limabean/app.clj:33-40. -/
def appMain (W : Host E L) (c : Cli) : Outcome E W.Expr :=
  match validateArgs W.isFile c with
  | .exit msg ok => { status := if ok then 0 else 1, err := [.message msg] }
  | .version => { status := 0, out := [str% "limabean.clj " ++ W.version] }
  | .run path (some text) => tryEval W path text
  | .run path none => repl W path

end Clj
end Limabean
