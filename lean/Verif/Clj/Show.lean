/-
Showing reports: the cells of reports, clj/src/limabean/core/inventory.clj:219-232, journal.clj:33-38, rollup.clj:70-82; and the way from a
cell to what is printed, clj/src/limabean/adapter/show.clj, tabulate.clj, shell.clj, rust/src/bin/limabean-pod/main.rs:57-82.

How cells are laid out is a parameter: it is done by tabulator, which is not part of the repository. Nor is the way in which it
reads cells; `readCell` accepts what the front end sends for each kind of cell. Texts are characters, without regard to their encoding.
-/
import Verif.Clj.Cell
import Verif.Clj.Reports
import Verif.Clj.UserCode
import Verif.Server.JsonText

namespace Limabean
namespace Clj

/-! ### Cells of reports -/

/-- `cell` of a number. -/
def numCell (d : Dec) : Cell := numberCell (decText d)

/-- `cell` of a string or `nil`. -/
def optCell : Option Str → Cell
  | some s => .aligned s
  | none => .empty

/-- `cost->cell`: clj/src/limabean/core/inventory.clj:219-224. -/
def costCell (c : Booked.Cost) : Cell :=
  .row [.aligned (Wire.fmtDate c.date), .aligned c.cur, numCell c.perUnit, optCell c.label,
    optCell (if c.merge then some (str% "*") else none)] (str% " ")

/-- `cell` of a position: clj/src/limabean/core/inventory.clj:226-232. -/
def positionCell (p : Position) : Cell :=
  let units := .row [numCell p.units, .aligned p.cur] (str% " ")
  match p.cost with
  | some c => .row [units, costCell c] (str% "  ")
  | none => .row [units] (str% "  ")

/-- `cell` of a vector of positions: clj/src/limabean/core/cell.clj:57-62. -/
def positionsCell (ps : List Position) : Cell := vectorCell (ps.map positionCell)

/-- `cell` of a map whose keys are strings: clj/src/limabean/core/cell.clj:46-55. It is the sorting of strings which is modelled. `order` is the iteration order of the map. -/
def mapCell {α : Type} (order : List Str → List Str) (f : α → Cell) (m : AMap Str α) : Cell :=
  .stack ((sortBy cmpStr (order m.keys)).map fun k => .row [.aligned k, match m.get k with | some x => f x | none => .empty] (str% "  "))

/-- `cell` of an inventory. -/
def inventoryCell (order : List Str → List Str) (inv : AMap Str (List Position)) : Cell := mapCell order positionsCell inv

/-- `cell` of an entry of a rollup: clj/src/limabean/core/rollup.clj:70-82. -/
def rollupEntryCell (e : RollupEntry) : Cell :=
  .row ((entryCells e).map fun x => match x with | some u => numCell u | none => .empty) (str% "  ")

/-- `cell` of a rollup. -/
def rollupCell (order : List Str → List Str) (r : AMap Str RollupEntry) : Cell := mapCell order rollupEntryCell r

/-- `cell` of an entry of a journal: clj/src/limabean/core/journal.clj:33-38. -/
def journalEntryCell (e : JournalEntry) : Cell :=
  .row [.aligned (Wire.fmtDate e.row.date), .aligned e.row.posting.acc, optCell e.row.payee, optCell e.row.narration,
    optCell e.row.posting.flag, numCell e.row.posting.units, .aligned e.row.posting.cur, positionsCell e.bal] (str% "  ")

/-- `cell` of a journal. -/
def journalCell (j : List JournalEntry) : Cell := vectorCell (j.map journalEntryCell)

/-! ### From a cell to what is printed -/

mutual
/-- What `cheshire/generate-string` makes of a cell: clj/src/limabean/core/cell.clj:5-18. -/
def cellJson : Cell → Json
  | .empty => .obj [(str% "empty", .null)]
  | .stack cs => .obj [(str% "stack", .arr (cellsJson cs))]
  | .row cs gutter => .obj [(str% "row", .arr [.arr (cellsJson cs), .str gutter])]
  | .aligned s => .obj [(str% "aligned", .arr [.str s, .str (str% "left")])]
  | .anchored s i => .obj [(str% "anchored", .arr [.str s, .num ⟨i, 0⟩])]
def cellsJson : List Cell → List Json
  | [] => []
  | c :: cs => cellJson c :: cellsJson cs
end

mutual
/-- How tabulator reads a cell, of the kinds which are sent. Positions of anchors are not negative. -/
def readCell : Json → Option Cell
  | .obj [(k, .null)] => if k = str% "empty" then some .empty else none
  | .obj [(k, .arr l)] =>
    if k = str% "stack" then (readCells l).map .stack
    else if k = str% "row" then readRow l
    else if k = str% "aligned" then
      match l with
      | [.str s, .str a] => if a = str% "left" then some (.aligned s) else none
      | _ => none
    else if k = str% "anchored" then
      match l with
      | [.str s, .num d] => if d.s = 0 ∧ 0 ≤ d.m then some (.anchored s d.m) else none
      | _ => none
    else none
  | _ => none
def readRow : List Json → Option Cell
  | [.arr l, .str g] => (readCells l).map fun cs => .row cs g
  | _ => none
def readCells : List Json → Option (List Cell)
  | [] => some []
  | j :: l => match readCell j, readCells l with
    | some c, some cs => some (c :: cs)
    | _, _ => none
end

/-- Parts of tabulator and serde_json: the layout of a cell, and the text of an error. -/
structure Tabulator where
  layout : Cell → Str
  jsonError : Str → Str

/-- What becomes of running a program: it cannot be started, or ends with a status and what it wrote. -/
inductive ShRun
  | failed (message : Str)
  | exited (status : Nat) (out err : Str)

/-- `limabean-pod tabulate` on its input: rust/src/bin/limabean-pod/main.rs:57-82, errors.rs:9-18. -/
def tabulate (T : Tabulator) (input : Str) : ShRun :=
  let cell := match JsonText.read input with
    | some j => if JsonText.nesting j < 128 then readCell j else none
    | none => none
  match cell with
  | some c => .exited 0 (T.layout c ++ ['\n']) []
  | none => .exited 1 [] (str% "limabean-pod JSON decode error: " ++ T.jsonError input ++ '\n' :: input ++ ['\n'])

/-- An exception with its message and the entry `:user-error`. -/
structure UserError where
  message : Str
  userError : Str
deriving DecidableEq

/-- The exception as `Throwable->map` gives it: `ex-info` without a cause. -/
def UserError.exc (e : UserError) : Exc := ⟨[some e.message]⟩

/-- `try-sh`: clj/src/limabean/adapter/shell.clj:4-13. -/
def trySh (program : Str) : ShRun → Except UserError Str
  | .exited status out err => if status = 0 then .ok out else .error ⟨program ++ str% "failed", err⟩
  | .failed message => .error ⟨program ++ str% "exception", message ++ ['\n']⟩

/-- `render`: clj/src/limabean/adapter/tabulate.clj:5-10. `sh` is what becomes of `limabean-pod tabulate` with that input. -/
def render (sh : Str → ShRun) (c : Cell) : Except UserError Str := trySh (str% "limabean-pod") (sh (JsonText.jackson.write (cellJson c)))

/-- `show`, of a cell: clj/src/limabean/adapter/show.clj:5-10. What is printed, or the exception. -/
def showCell (sh : Str → ShRun) (c : Cell) : Except UserError Str := render sh c

end Clj
end Limabean
