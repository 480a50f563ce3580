/-
Talking to the server: clj/src/limabean/adapter/pod.clj.

The server works on a line as soon as it is written; what it writes waits until the client reads it. A line is a JSON value: its text,
which cheshire and serde_json write without newlines, is modelled apart (`Server/JsonText`, C88); but serde_json's limit on nesting is part
of this model (`lineOf`). `none` as an answer stands for an exception.
-/
import Verif.Clj.Spans
import Verif.Clj.Plugins
import Verif.Server.Response
import Verif.Server.JsonText

namespace Limabean
namespace Clj

/-- What surrounds the front end. -/
structure Front (E : Ext) (L : BookLib) where
  /-- the iteration order of the server's hash maps during each request -/
  orders : Nat → AMap Str (Account L) → AMap Str (Account L)
  /-- the iteration order of sets -/
  ord : List Data → List Data
  /-- the iteration order of maps -/
  ordm : List (Str × Json) → List (Str × Json)
  /-- `str` on other data than strings and keywords -/
  txt : Data → Str
  /-- the texts of directives -/
  texts : Texts
  /-- `System/identityHashCode` -/
  hash : Nat → Nat
  /-- whether a raw (`true`) or booked directive satisfies its specification -/
  valid : Bool → Data → Bool
  /-- the result of loading a plugin of this name with this configuration and these options: its raw and its booked transducer, and
  the message if it fails -/
  resolve : Data → Data → Option Plugin × Option Plugin × Option Str
  /-- `registry/build`; `none` if it throws -/
  registry : List Data → Data → Option Data

/-- A server process and the pipes to it: clj/src/limabean/adapter/pod.clj:137-145. -/
structure Pod (E : Ext) where
  /-- the number of requests sent -/
  nextId : Nat := 0
  /-- the server, unless the process has ended -/
  server : Option (Server E)
  /-- the number of lines which the server has answered -/
  served : Nat := 0
  /-- the lines which the server has written and the client has not read -/
  written : List Json := []

/-- What `invoke` returns; absent entries are `nil`. -/
structure Answer where
  ok : Data
  err : Data

variable {E : Ext} {L : BookLib}

/-- A line as the server reads it: rust/src/api/server.rs:85-92. serde_json refuses text which is nested more than 127 deep. -/
def lineOf (E : Ext) (j : Json) : Server.Line := if JsonText.nesting j < 128 then .json j else .garbage (E.serdeText j)

/-- `write-line`, and what the server makes of the line: clj/src/limabean/adapter/pod.clj:13-18. Writing to a process which has ended
has no effect (`PrintWriter` hides errors). -/
def Pod.write (F : Front E L) (pod : Pod E) (line : Json) : Pod E :=
  match pod.server with
  | none => pod
  | some s => match Server.dispatch E L (F.orders pod.served) s (lineOf E line) with
    | none => { pod with server := none }
    | some (s', r) => { pod with server := some s', served := pod.served + 1, written := pod.written ++ [Wire.encResponse E r] }

/-- `read-to-eol`: clj/src/limabean/adapter/pod.clj:20-23; `none` stands for `nil`, at the end of the stream. If the server lives and has
written nothing, the client waits forever; C49 shows that this does not happen. -/
def Pod.read (pod : Pod E) : Pod E × Option Json :=
  match pod.written with
  | [] => (pod, none)
  | j :: rest => ({ pod with written := rest }, some j)

/-- The message: clj/src/limabean/adapter/pod.clj:25-32, 62. -/
def message (method : Str) (params : Data) (id : Nat) : Data :=
  .map ([(str% "method", .str method)] ++ (if params.truthy then [(str% "params", params)] else []) ++
    [(str% "id", .num ⟨id, 0⟩), (str% "jsonrpc", .str (str% "2.0"))])

/-- `read-msg`, and the result of `invoke`: clj/src/limabean/adapter/pod.clj:49-56, 64-67. -/
def answerOf (ord : List Data → List Data) : Option Json → Option Answer
  | none => some { ok := .nil, err := .nil }
  | some j => (decode ord none j).map fun m =>
    { ok := if (m.get (str% "result")).truthy then m.get (str% "result") else .nil
      err := if (m.get (str% "error")).truthy then m.get (str% "error") else .nil }

/-- `invoke`: clj/src/limabean/adapter/pod.clj:58-67. -/
def Pod.invoke (F : Front E L) (pod : Pod E) (method : Str) (params : Data) : Pod E × Option Answer :=
  let id := pod.nextId + 1
  let pod := { pod with nextId := id }
  let pod := pod.write F (toJson F.ordm (message method params id))
  let r := pod.read
  (r.1, answerOf F.ord r.2)

/-- `ok-or-throw`: clj/src/limabean/adapter/pod.clj:72-77. -/
def okOrThrow : Option Answer → Option Data
  | none => none
  | some a => if a.err.truthy then none else some a.ok

/-- What `map-error` makes of an answer: clj/src/limabean/adapter/pod.clj:79-87. -/
structure Mapped where
  ok : Data := .nil
  spanned : Data := .nil
  indexed : Data := .nil
  message : Data := .nil

/-- `(= code n)`. -/
def isNum (x : Data) (n : Int) : Bool :=
  match x with
  | .num ⟨m, 0⟩ => m == n
  | _ => false

/-- `map-error`: clj/src/limabean/adapter/pod.clj:79-87. -/
def mapError (a : Answer) : Mapped :=
  if a.err.truthy then
    if isNum (a.err.get (str% "code")) 2 then { spanned := a.err.get (str% "data") }
    else if isNum (a.err.get (str% "code")) 3 then { indexed := a.err.get (str% "data") }
    else { message := a.err.get (str% "message") }
  else { ok := a.ok }

/-- `plugins`: clj/src/limabean/adapter/pod.clj:91-94. -/
def Pod.plugins (F : Front E L) (pod : Pod E) : Pod E × Option Mapped :=
  let r := pod.invoke F (str% "parser.plugins") .nil
  (r.1, r.2.map mapError)

/-- `directives`: clj/src/limabean/adapter/pod.clj:95-98. -/
def Pod.directives (F : Front E L) (pod : Pod E) : Pod E × Option Mapped :=
  let r := pod.invoke F (str% "parser.directives") .nil
  (r.1, r.2.map mapError)

/-- `options`: clj/src/limabean/adapter/pod.clj:99-102. -/
def Pod.options (F : Front E L) (pod : Pod E) : Pod E × Option Mapped :=
  let r := pod.invoke F (str% "parser.options") .nil
  (r.1, r.2.map mapError)

/-- `format-errors`: clj/src/limabean/adapter/pod.clj:103-106. -/
def Pod.formatErrors (F : Front E L) (pod : Pod E) (errors : List Data) : Pod E × Option Data :=
  let r := pod.invoke F (str% "parser.format-errors") (.vec errors)
  (r.1, okOrThrow r.2)

/-- A request for a synthetic span: clj/src/limabean/adapter/synthetic_spans.clj:14-17. -/
def ofSynthetic (s : SyntheticSpan) : Data := .map [(str% "name", .str s.name), (str% "content", .str s.content)]

/-- `create-synthetic-spans`: clj/src/limabean/adapter/pod.clj:115-118. -/
def Pod.createSpans (F : Front E L) (pod : Pod E) (requests : List SyntheticSpan) : Pod E × Option (List Data) :=
  let r := pod.invoke F (str% "parser.create-synthetic-spans") (.vec (requests.map ofSynthetic))
  (r.1, (okOrThrow r.2).map Data.elems)

/-- `book`: clj/src/limabean/adapter/pod.clj:119-122. -/
def Pod.book (F : Front E L) (pod : Pod E) (directives : Option (List Data)) : Pod E × Option Mapped :=
  let r := pod.invoke F (str% "book") (match directives with | some l => .vec l | none => .nil)
  (r.1, r.2.map mapError)

/-- `start`, given the server which the new process runs: clj/src/limabean/adapter/pod.clj:134-151. `none` is an exception, thrown after
stopping the process. -/
def Pod.start (F : Front E L) (s : Server E) : Except (Option (Pod E)) (Pod E) :=
  let r := Pod.invoke F { server := some s } (str% "status") .nil
  match r.2 with
  | none => .error (some r.1)
  | some a => if a.err.truthy then .error none else .ok r.1

end Clj
end Limabean
