/-
The test case test-cases/err-parse.beancount, which does not parse.
-/
import Verif.Recorded.Harness

namespace Limabean
namespace Recorded
namespace ErrParse
open Clj

set_option maxRecDepth 100000

/-- The error which the parser gives. -/
def parserError : ParserError :=
  { message := str% "found 'T' expected transaction, directive, or end of input"
    reason := str% "found 'T' expected transaction, directive, or end of input"
    span := ⟨0, 0, 1⟩ }

/-- test-cases/err-parse.golden/error.edn, below `:parser` and `:spanned-reports` -/
def errorEdn : List Data := [.map [
  (str% "message", .str (str% "found 'T' expected transaction, directive, or end of input")),
  (str% "reason", .str (str% "found 'T' expected transaction, directive, or end of input")),
  (str% "span", .vec [.num ⟨0, 0⟩, .num ⟨0, 0⟩, .num ⟨1, 0⟩])]]

/-- Whether loading ends with these reports of the parser. -/
def parserReportsAre (r : Except (Option (Pod sources)) (LoadedBeans sources)) (golden : List Data) : Bool := match r with
  | .ok m => match m.error with
    | some (.parser reports) => same 20 reports (.vec golden)
    | _ => false
  | .error _ => false

example : parserReportsAre (loadBeanfile (front Toy.lib) (.ready ([] : List (Str × Nat)) (.error [parserError]))) errorEdn = true := by
  decide +kernel

end ErrParse
end Recorded
end Limabean
