/-
The user's own code: clj/src/limabean/adapter/user_clj.clj, clj/src/limabean/adapter/exception.clj, and the interactive session of
clj/src/limabean/app.clj.

What loading a file and evaluating an input do is given: they may change the variables of the session and everything else, and throw an
exception. Not modelled: errors which are not exceptions (`load-user-cljs` does not catch them), user code which sets `*exception*`.
-/
import Verif.Clj.App
import Verif.Clj.Reports

namespace Limabean
namespace Clj

variable {E : Ext} {L : BookLib} {U Input : Type}

/-- An exception, as `Throwable->map` gives it: the messages of the exception and of its causes, each of which may have none. -/
structure Exc where
  via : List (Option Str)
deriving DecidableEq, Repr

/-- What surrounds a session. -/
structure UserHost (E : Ext) (L : BookLib) (U Input : Type) where
  front : Front E L
  /-- the server which a new process runs for that beanfile; `none` if no process can be started -/
  server : Str → Option (Server E)
  /-- the exception which `load-beanfile` throws, if it does -/
  loadExc : Exc
  /-- the variable `LIMABEAN_USER_CLJ` of the environment -/
  userClj : Option Str
  /-- `load-file`: the variables, what else there is, and the exception which was thrown -/
  loadFile : Str → Globals E × U → (Globals E × U) × Option Exc
  /-- reading and evaluating an input, likewise -/
  eval : Input → Globals E × U → (Globals E × U) × Option Exc

/-- What is written to the standard error. -/
inductive UserText
  | load (l : LoadLine)
  | text (s : Str)
deriving DecidableEq, Repr

/-- A session. -/
structure Repl (E : Ext) (U : Type) where
  state : Globals E × U
  /-- `*exception*`: clj/src/limabean/adapter/exception.clj:4 -/
  exception : Option Exc := none
  err : List UserText := []

/-- What `handle-exception` prints: clj/src/limabean/adapter/exception.clj:11-15. `:via` is never `nil`. -/
def exceptionText (e : Exc) : Str := str% "Exception: " ++ (e.via.filterMap id).flatMap fun m => m ++ ['\n']

/-- `handle-exception`: clj/src/limabean/adapter/exception.clj:6-17. -/
def Repl.handle (r : Repl E U) (e : Exc) : Repl E U :=
  { r with exception := some e, err := r.err ++ [.text (exceptionText e)] }

/-- The line about a file: clj/src/limabean/adapter/user_clj.clj:13. -/
def failedText (clj : Str) : Str := str% "Failed to load " ++ clj ++ str% " from $LIMABEAN_USER_CLJ\n"

/-- Loading one file: clj/src/limabean/adapter/user_clj.clj:9-14. -/
def Repl.loadClj (W : UserHost E L U Input) (r : Repl E U) (clj : Str) : Repl E U :=
  let x := W.loadFile clj r.state
  let r := { r with state := x.1 }
  match x.2 with
  | none => r
  | some e => Repl.handle { r with err := r.err ++ [.text (failedText clj)] } e

/-- `load-user-cljs`: clj/src/limabean/adapter/user_clj.clj:5-15. -/
def Repl.loadUserCljs (W : UserHost E L U Input) (r : Repl E U) : Repl E U :=
  match W.userClj with
  | none => r
  | some cljs => (splitColon cljs).foldl (Repl.loadClj W) r

/-- `init`: clj/src/limabean/app.clj:8-19, in `repl`, which catches exceptions: clj/src/limabean/app.clj:39-40. -/
def Repl.init (W : UserHost E L U Input) (path : Str) (u : U) : Repl E U :=
  let x := userLoad W.front {} path (W.server path)
  let r : Repl E U := { state := (x.1, u), err := x.2.1.map UserText.load }
  if x.2.2 then r.loadUserCljs W else r.handle W.loadExc

/-- One input of the session: `:caught` is `handle-exception`, clj/src/limabean/app.clj:39-40. -/
def Repl.input (W : UserHost E L U Input) (r : Repl E U) (i : Input) : Repl E U :=
  let x := W.eval i r.state
  let r := { r with state := x.1 }
  match x.2 with
  | none => r
  | some e => r.handle e

/-- A session with some inputs: `run`, clj/src/limabean/app.clj:33-40. -/
def session (W : UserHost E L U Input) (path : Str) (u : U) (inputs : List Input) : Repl E U :=
  inputs.foldl (Repl.input W) (Repl.init W path u)

end Clj
end Limabean
