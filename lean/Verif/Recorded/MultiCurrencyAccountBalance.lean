/-
The test case test-cases/multi-currency-account-balance.beancount. Transactions are booked by the small library.
-/
import Verif.Recorded.Lawful

namespace Limabean
namespace Recorded
namespace MultiCurrencyAccountBalance
open Clj

set_option maxRecDepth 100000

/-- test-cases/multi-currency-account-balance.beancount, parsed. -/
def ledger : List Data := [
  .map [(str% "date", .date ⟨1970, 1, 1⟩), (str% "dct", .kw (str% "commodity")), (str% "cur", .str (str% "NZD"))],
  .map [(str% "date", .date ⟨1970, 1, 1⟩), (str% "dct", .kw (str% "commodity")), (str% "cur", .str (str% "GBP"))],
  .map [(str% "date", .date ⟨2016, 3, 1⟩), (str% "dct", .kw (str% "open")), (str% "acc", .str (str% "Assets:Bank:Current"))],
  .map [(str% "date", .date ⟨2016, 3, 1⟩), (str% "dct", .kw (str% "open")), (str% "acc", .str (str% "Income:Unknown"))],
  .map [(str% "date", .date ⟨2023, 3, 31⟩), (str% "dct", .kw (str% "txn")), (str% "flag", .str (str% "*")), (str% "narration", .str (str% "NZD income")), (str% "postings", .vec [.map [(str% "acc", .str (str% "Assets:Bank:Current")), (str% "units", .num ⟨472, 2⟩), (str% "cur", .str (str% "NZD"))], .map [(str% "acc", .str (str% "Income:Unknown"))]])],
  .map [(str% "date", .date ⟨2023, 3, 31⟩), (str% "dct", .kw (str% "txn")), (str% "flag", .str (str% "*")), (str% "narration", .str (str% "GBP income")), (str% "postings", .vec [.map [(str% "acc", .str (str% "Assets:Bank:Current")), (str% "units", .num ⟨472, 2⟩), (str% "cur", .str (str% "GBP"))], .map [(str% "acc", .str (str% "Income:Unknown"))]])],
  .map [(str% "date", .date ⟨2026, 1, 28⟩), (str% "dct", .kw (str% "balance")), (str% "acc", .str (str% "Assets:Bank:Current")), (str% "units", .num ⟨472, 2⟩), (str% "cur", .str (str% "NZD"))],
  .map [(str% "date", .date ⟨2026, 1, 28⟩), (str% "dct", .kw (str% "balance")), (str% "acc", .str (str% "Assets:Bank:Current")), (str% "units", .num ⟨472, 2⟩), (str% "cur", .str (str% "GBP"))]]

/-- The library. -/
def library : BookLib := Toy.lib

/-- The model, run on it. -/
def result := loaded library {} [] ledger

/-- test-cases/multi-currency-account-balance.golden/inventory -/
example : inventoryIs result
    (str% "Assets:Bank:Current 4.72 GBP\n 4.72 NZD\nIncome:Unknown -4.72 GBP\n -4.72 NZD\n") = true := by decide +kernel

end MultiCurrencyAccountBalance
end Recorded
end Limabean
