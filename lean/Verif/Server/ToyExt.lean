/-
A concrete instance of the external parts of the server, for examples: sources are a list of texts with names.
-/
import Verif.Server.Server
import Verif.Pod.ToyLib

namespace Limabean
namespace Toy

/-- Sources are named texts; a span is a position in that list. -/
def ext : Ext where
  Sources := List (Str × Str)
  create s n c := (s ++ [(n, c)], { source := s.length, start := 0, stop := c.length })
  resolve s sp := (s[sp.source]?).map fun x =>
    { fileName := some x.1, startLine := 1, endLine := 1, content := (x.2.take sp.stop).drop sp.start }
  writeReport _ _ r := some (r.message ++ r.reason ++ ['\n'])
  reasonText _ := str% "reason"
  rowsText _ := str% "rows"
  f64 n := ⟨n, 0⟩
  serdeText _ := str% "bad request"

/-- Options of an ordinary ledger. -/
def options : LedgerOptions :=
  { nameAssets := str% "Assets", nameLiabilities := str% "Liabilities", nameEquity := str% "Equity",
    nameIncome := str% "Income", nameExpenses := str% "Expenses" }

/-- A server on a parsed ledger. -/
def server (ds : List Raw.Directive) : Server ext := .ready [] (.ok { directives := ds, options := options, plugins := [] })

/-- A server on a beanfile which does not parse. -/
def broken : Server ext :=
  .ready [] (.error [{ message := str% "unexpected", reason := str% "token", span := ⟨0, 1, 2⟩ }])

/-- A request. -/
def req (id : Nat) (method : Str) (params : List (Str × Json) := []) : Server.Line :=
  .json (.obj ([(str% "jsonrpc", .str (str% "2.0")), (str% "id", Json.nat id), (str% "method", .str method)] ++ params))

end Toy
end Limabean
