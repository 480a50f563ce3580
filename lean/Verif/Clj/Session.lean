/-
Printing errors, and loading beanfiles in a session: clj/src/limabean/adapter/error.clj, clj/src/limabean/user.clj.

`none` stands for an exception.
-/
import Verif.Clj.Loader

namespace Limabean
namespace Clj

variable {E : Ext} {L : BookLib}

/-- One error of a directive: clj/src/limabean/adapter/error.clj:24-30. The condition for `:related` looks up `:span-p` in the keyword
`:dct`, not in the directive. -/
def dctReport (d err : Data) : Data :=
  let report := Data.map [(str% "message", err.get (str% "plugin")), (str% "reason", err.get (str% "message")),
    (str% "span", (d.get (str% "span-p")).or (d.get (str% "span")))]
  if (d.get (str% "span")).truthy && ((Data.kw (str% "dct")).get (str% "span-p")).truthy then
    report.assoc (str% "related") (.vec [.vec [.str (str% "source"), d.get (str% "span")]])
  else report

/-- The errors of a directive; other data than vectors and sets are taken to throw. -/
def errsOf (d : Data) : Option (List Data) :=
  match d.get (str% "err") with
  | .vec l => some l
  | .set l => some l
  | .nil => some []
  | _ => none

/-- `dct-errors->reports`: clj/src/limabean/adapter/error.clj:21-31. -/
def dctReports (l : List Data) : Option (List Data) :=
  (Json.all (fun d => (errsOf d).map fun es => es.map (dctReport d)) l).map List.flatten

/-- Printing with `println`. -/
def println (F : Front E L) (x : Data) : Str := match x with
  | .nil => str% "nil"
  | x => strOf F.txt x

/-- `print-error`: clj/src/limabean/adapter/error.clj:33-39. `reports` is `none` if making the reports throws. The printed lines are
given even if there is an exception after them. -/
def printError (F : Front E L) (pod : Pod E) (message : List Str) (reports : Option (List Data)) (exception : List Str) :
    Pod E × List Str × Bool :=
  match reports with
  | none => (pod, message, false)
  | some rs => match pod.formatErrors F rs with
    | (pod, none) => (pod, message, false)
    | (pod, some t) => (pod, message ++ [println F t] ++ exception, true)

/-- The name of a kind of plugin. -/
def kindName (raw : Bool) : Str := if raw then str% "raw" else str% "booked"

/-- The message when a plugin throws: clj/src/limabean/adapter/loader.clj:80-89. -/
def exceptionMessage (raw : Bool) : Str :=
  str% "Exception thrown by " ++ kindName raw ++ str% " plugin, all " ++ kindName raw ++ str% " plugins ignored"

/-- The reports of the parser, `nil` counting as none. -/
def reportsOf : Data → List Data := Data.elems

/-- `print-errors`: clj/src/limabean/adapter/error.clj:41-54: the process, the lines printed, and whether it ended without an exception.
`(:message exception)` is `nil` for a `Throwable` as well as for the map made of one. -/
def printErrors (F : Front E L) (pod : Pod E) : Option LoadError → Pod E × List Str × Bool
  | none => (pod, [], true)
  | some (.plugins l) => (pod, l.map fun p => str% "ERROR in plugin " ++ println F p.name ++ str% " - " ++ p.err.getD (str% "nil"), true)
  | some (.parser r) => printError F pod [] (some (reportsOf r)) []
  | some (.dctErrors _ l) => printError F pod [] (dctReports l) []
  | some (.pluginException raw) => printError F pod [exceptionMessage raw] (some []) [str% "nil"]
  | some (.booking rs) => printError F pod [str% "Booking failed\n"] rs []
  | some .bookingException => printError F pod [str% "Booking failed\n"] (some []) [str% "nil"]

/-- A session: processes are numbered. -/
structure Session where
  next : Nat := 0
  /-- the process in `*beans*` -/
  current : Option Nat := none
  /-- the processes started in the session which are alive -/
  live : List Nat := []
deriving DecidableEq, Repr

/-- The process is alive. -/
def Pod.alive (pod : Pod E) : Bool := pod.server.isSome

/-- The start of `load-beanfile`: clj/src/limabean/user.clj:34-35. -/
def Session.stop (σ : Session) : Session :=
  { σ with current := none, live := match σ.current with | some p => σ.live.filter (· ≠ p) | none => σ.live }

/-- The process starts. -/
def Session.start (σ : Session) : Session := { σ with next := σ.next + 1, live := σ.next :: σ.live }

/-- The session after loading in the process started last: whether it is alive, and whether it got into `*beans*`. -/
def Session.loaded (σ : Session) (alive done : Bool) : Session :=
  { σ with current := if done then σ.live.head? else none, live := if alive then σ.live else σ.live.tail }

/-- `load-beanfile`: clj/src/limabean/user.clj:32-47, given the server which the new process runs, or `none` if no process can be
started. -/
def Session.load (F : Front E L) (σ : Session) : Option (Server E) → Session
  | none => σ.stop
  | some s => match loadBeanfile F s with
    | .error none => σ.stop.start.loaded false false
    | .error (some pod) => σ.stop.start.loaded pod.alive false
    | .ok m => σ.stop.start.loaded (printErrors F m.pod m.error).1.alive (printErrors F m.pod m.error).2.2

end Clj
end Limabean
