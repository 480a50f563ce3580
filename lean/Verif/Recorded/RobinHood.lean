/-
The test case test-cases/robin-hood.beancount. Transactions are booked by the small library.
-/
import Verif.Recorded.Lawful

namespace Limabean
namespace Recorded
namespace RobinHood
open Clj

set_option maxRecDepth 100000

/-- test-cases/robin-hood.beancount, parsed. -/
def ledger : List Data := [
  .map [(str% "date", .date ⟨2020, 7, 23⟩), (str% "dct", .kw (str% "open")), (str% "acc", .str (str% "Assets:US:Robinhood:Cash")), (str% "currencies", .set [.str (str% "USD")])],
  .map [(str% "date", .date ⟨2020, 7, 23⟩), (str% "dct", .kw (str% "open")), (str% "acc", .str (str% "Assets:US:Robinhood:ABCD")), (str% "currencies", .set [.str (str% "ABCD")])],
  .map [(str% "date", .date ⟨2020, 7, 23⟩), (str% "dct", .kw (str% "txn")), (str% "flag", .str (str% "*")), (str% "payee", .str (str% "Bought 1 shares of ABCD")), (str% "postings", .vec [.map [(str% "acc", .str (str% "Assets:US:Robinhood:ABCD")), (str% "units", .num ⟨1, 0⟩), (str% "cur", .str (str% "ABCD")), (str% "cost-spec", .map [(str% "cur", .str (str% "USD")), (str% "per-unit", .num ⟨5584, 2⟩), (str% "date", .date ⟨2020, 7, 23⟩)])], .map [(str% "acc", .str (str% "Assets:US:Robinhood:Cash")), (str% "units", .num ⟨-5584, 2⟩), (str% "cur", .str (str% "USD"))]])]]

/-- The library. -/
def library : BookLib := Toy.lib

/-- The model, run on it. -/
def result := loaded library {} [] ledger

/-- test-cases/robin-hood.golden/inventory -/
example : inventoryIs result
    (str% "Assets:US:Robinhood:ABCD 1 ABCD 2020-07-23 USD 55.84 \nAssets:US:Robinhood:Cash -55.84 USD \n") = true := by decide +kernel

end RobinHood
end Recorded
end Limabean
