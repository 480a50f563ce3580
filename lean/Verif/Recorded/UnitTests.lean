/-
The unit tests of the project: rust/src/api/booking/tests.rs, clj/test/limabean/core/filters_test.clj. (Those of
clj/test/limabean/app_test.clj are the other modules here; what clj/test/limabean/util_test.clj tests is specialised in `Clj/Spans`.)
-/
import Verif.Recorded.Harness
import Verif.Clj.DateArgs

namespace Limabean
namespace Recorded
namespace UnitTests
open Clj

set_option maxRecDepth 100000

/-! ### rust/src/api/booking/tests.rs -/

/-- The ledger of both tests, with the amount which is deposited. -/
def deposit (units : Dec) : List Raw.Directive :=
  [ { date := ⟨2025, 1, 1⟩, variant := .opn { acc := str% "Assets:Bank" } },
    { date := ⟨2025, 1, 1⟩, variant := .opn { acc := str% "Equity:Opening" } },
    { date := ⟨2025, 1, 1⟩
      variant := .transaction
        { flag := str% "*", narration := some (str% "Deposit")
          postings :=
            [ { acc := str% "Assets:Bank", units := some units, cur := some (str% "USD") },
              { acc := str% "Equity:Opening", units := some units.neg, cur := some (str% "USD") } ] } },
    { date := ⟨2025, 1, 2⟩, variant := .balance { acc := str% "Assets:Bank", units := ⟨10000, 2⟩, cur := str% "USD" } } ]

/-- `book_str_ok`: rust/src/api/booking/tests.rs:7-17. -/
def bookOk (ds : List Raw.Directive) : Bool :=
  match book Toy.lib id {} ds with
  | .success _ _ => true
  | _ => false

/-- rust/src/api/booking/tests.rs:20-36 -/
example : bookOk (deposit ⟨10001, 2⟩) = true := by decide +kernel

/-- rust/src/api/booking/tests.rs:39-53 -/
example : bookOk (deposit ⟨10002, 2⟩) = false := by decide +kernel

/-! ### clj/test/limabean/core/filters_test.clj -/

/-- A directive of the date in the tests. -/
def october : Fields := { date := some ⟨2025, 10, 14⟩ }

/-- Whether a filter made of these arguments lets it pass. -/
def passes (f : Option Filter) : Bool := match f with
  | some f => f october
  | none => false

/-- clj/test/limabean/core/filters_test.clj:31-35 -/
example : passes (dateLtArgs [.text (str% "2025-10-15")]) = true ∧ passes (dateLtArgs [.num 2025, .num 10, .num 15]) = true ∧
    passes (dateLtArgs [.num 2025, .num 11]) = true ∧ passes (dateLtArgs [.num 2026]) = true := by decide +kernel

/-- clj/test/limabean/core/filters_test.clj:37-43 -/
example : passes (dateGeLtArgs [.text (str% "2025-10-14"), .text (str% "2025-10-15")]) = true ∧
    passes (dateGeLtArgs [.num 2025, .num 10, .num 14, .num 2025, .num 10, .num 15]) = true ∧
    passes (dateGeLtArgs [.num 2025, .num 10, .num 2025, .num 11]) = true ∧
    passes (dateGeLtArgs [.num 2025, .num 2026]) = true := by decide +kernel

end UnitTests
end Recorded
end Limabean
