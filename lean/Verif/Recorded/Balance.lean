/-
The test case test-cases/balance.beancount. Transactions are booked by the small library.
-/
import Verif.Recorded.Lawful

namespace Limabean
namespace Recorded
namespace Balance
open Clj

set_option maxRecDepth 100000

/-- test-cases/balance.beancount, parsed. -/
def ledger : List Data := [
  .map [(str% "date", .date ⟨1970, 1, 1⟩), (str% "dct", .kw (str% "commodity")), (str% "cur", .str (str% "NZD"))],
  .map [(str% "date", .date ⟨2016, 3, 1⟩), (str% "dct", .kw (str% "open")), (str% "acc", .str (str% "Assets:Bank"))],
  .map [(str% "date", .date ⟨2016, 3, 1⟩), (str% "dct", .kw (str% "open")), (str% "acc", .str (str% "Assets:Bank:Current"))],
  .map [(str% "date", .date ⟨2016, 3, 1⟩), (str% "dct", .kw (str% "open")), (str% "acc", .str (str% "Assets:Bank:Savings"))],
  .map [(str% "date", .date ⟨2016, 3, 1⟩), (str% "dct", .kw (str% "open")), (str% "acc", .str (str% "Expenses:Groceries")), (str% "currencies", .set [.str (str% "NZD")])],
  .map [(str% "date", .date ⟨2016, 3, 1⟩), (str% "dct", .kw (str% "open")), (str% "acc", .str (str% "Expenses:Entertainment")), (str% "currencies", .set [.str (str% "NZD")])],
  .map [(str% "date", .date ⟨2016, 3, 1⟩), (str% "dct", .kw (str% "open")), (str% "acc", .str (str% "Income:Unknown")), (str% "currencies", .set [.str (str% "NZD")])],
  .map [(str% "date", .date ⟨2020, 1, 1⟩), (str% "dct", .kw (str% "txn")), (str% "flag", .str (str% "*")), (str% "narration", .str (str% "Initial income")), (str% "postings", .vec [.map [(str% "acc", .str (str% "Assets:Bank:Current")), (str% "units", .num ⟨100000, 2⟩), (str% "cur", .str (str% "NZD"))], .map [(str% "acc", .str (str% "Income:Unknown"))]])],
  .map [(str% "date", .date ⟨2020, 1, 1⟩), (str% "dct", .kw (str% "txn")), (str% "flag", .str (str% "*")), (str% "narration", .str (str% "Initial savings")), (str% "postings", .vec [.map [(str% "acc", .str (str% "Assets:Bank:Savings")), (str% "units", .num ⟨500000, 2⟩), (str% "cur", .str (str% "NZD"))], .map [(str% "acc", .str (str% "Income:Unknown"))]])],
  .map [(str% "date", .date ⟨2020, 1, 28⟩), (str% "dct", .kw (str% "balance")), (str% "acc", .str (str% "Assets:Bank:Current")), (str% "units", .num ⟨100000, 2⟩), (str% "cur", .str (str% "NZD"))],
  .map [(str% "date", .date ⟨2020, 1, 28⟩), (str% "dct", .kw (str% "balance")), (str% "acc", .str (str% "Assets:Bank:Savings")), (str% "units", .num ⟨500000, 2⟩), (str% "cur", .str (str% "NZD"))],
  .map [(str% "date", .date ⟨2020, 1, 28⟩), (str% "dct", .kw (str% "balance")), (str% "acc", .str (str% "Assets:Bank")), (str% "units", .num ⟨600000, 2⟩), (str% "cur", .str (str% "NZD"))],
  .map [(str% "date", .date ⟨2020, 2, 1⟩), (str% "dct", .kw (str% "txn")), (str% "flag", .str (str% "*")), (str% "narration", .str (str% "Food")), (str% "postings", .vec [.map [(str% "acc", .str (str% "Assets:Bank:Current")), (str% "units", .num ⟨-5000, 2⟩), (str% "cur", .str (str% "NZD"))], .map [(str% "acc", .str (str% "Expenses:Groceries"))]])],
  .map [(str% "date", .date ⟨2020, 2, 2⟩), (str% "dct", .kw (str% "txn")), (str% "flag", .str (str% "*")), (str% "narration", .str (str% "Drinks")), (str% "postings", .vec [.map [(str% "acc", .str (str% "Assets:Bank:Current")), (str% "units", .num ⟨-1500, 2⟩), (str% "cur", .str (str% "NZD"))], .map [(str% "acc", .str (str% "Expenses:Entertainment"))]])],
  .map [(str% "date", .date ⟨2020, 2, 28⟩), (str% "dct", .kw (str% "balance")), (str% "acc", .str (str% "Assets:Bank:Current")), (str% "units", .num ⟨93500, 2⟩), (str% "cur", .str (str% "NZD"))],
  .map [(str% "date", .date ⟨2020, 3, 1⟩), (str% "dct", .kw (str% "txn")), (str% "flag", .str (str% "*")), (str% "narration", .str (str% "Food")), (str% "postings", .vec [.map [(str% "acc", .str (str% "Assets:Bank:Current")), (str% "units", .num ⟨-10000, 2⟩), (str% "cur", .str (str% "NZD"))], .map [(str% "acc", .str (str% "Expenses:Groceries"))]])],
  .map [(str% "date", .date ⟨2020, 3, 28⟩), (str% "dct", .kw (str% "balance")), (str% "acc", .str (str% "Assets:Bank:Current")), (str% "units", .num ⟨83500, 2⟩), (str% "cur", .str (str% "NZD"))],
  .map [(str% "date", .date ⟨2020, 4, 1⟩), (str% "dct", .kw (str% "txn")), (str% "flag", .str (str% "*")), (str% "narration", .str (str% "Big trip")), (str% "postings", .vec [.map [(str% "acc", .str (str% "Assets:Bank:Current")), (str% "units", .num ⟨-83500, 2⟩), (str% "cur", .str (str% "NZD"))], .map [(str% "acc", .str (str% "Expenses:Entertainment"))]])],
  .map [(str% "date", .date ⟨2020, 4, 27⟩), (str% "dct", .kw (str% "balance")), (str% "acc", .str (str% "Assets:Bank:Current")), (str% "units", .num ⟨0, 2⟩), (str% "cur", .str (str% "NZD"))],
  .map [(str% "date", .date ⟨2020, 5, 1⟩), (str% "dct", .kw (str% "txn")), (str% "flag", .str (str% "*")), (str% "narration", .str (str% "Food")), (str% "postings", .vec [.map [(str% "acc", .str (str% "Assets:Bank:Current")), (str% "units", .num ⟨-500, 2⟩), (str% "cur", .str (str% "NZD"))], .map [(str% "acc", .str (str% "Expenses:Groceries"))]])],
  .map [(str% "date", .date ⟨2020, 5, 28⟩), (str% "dct", .kw (str% "balance")), (str% "acc", .str (str% "Assets:Bank:Current")), (str% "units", .num ⟨-500, 2⟩), (str% "cur", .str (str% "NZD"))],
  .map [(str% "date", .date ⟨2020, 5, 28⟩), (str% "dct", .kw (str% "balance")), (str% "acc", .str (str% "Assets:Bank")), (str% "units", .num ⟨499500, 2⟩), (str% "cur", .str (str% "NZD"))]]

/-- The library. -/
def library : BookLib := Toy.lib

/-- The model, run on it. -/
def result := loaded library {} [] ledger

/-- test-cases/balance.golden/inventory -/
example : inventoryIs result
    (str% "Assets:Bank:Current -5.00 NZD\nAssets:Bank:Savings 5000.00 NZD\nExpenses:Entertainment 850.00 NZD\nExpenses:Groceries 155.00 NZD\nIncome:Unknown -6000.00 NZD\n") = true := by decide +kernel

end Balance
end Recorded
end Limabean
