/-
The test case test-cases/simple.beancount. Transactions are booked by the small library.
-/
import Verif.Recorded.Lawful

namespace Limabean
namespace Recorded
namespace Simple
open Clj

set_option maxRecDepth 100000

/-- test-cases/simple.beancount, parsed. -/
def ledger : List Data := [
  .map [(str% "date", .date ⟨1970, 1, 1⟩), (str% "dct", .kw (str% "commodity")), (str% "cur", .str (str% "NZD"))],
  .map [(str% "date", .date ⟨1970, 1, 1⟩), (str% "dct", .kw (str% "commodity")), (str% "cur", .str (str% "GBP"))],
  .map [(str% "date", .date ⟨2016, 3, 1⟩), (str% "dct", .kw (str% "open")), (str% "acc", .str (str% "Assets:Bank:Current"))],
  .map [(str% "date", .date ⟨2016, 3, 1⟩), (str% "dct", .kw (str% "open")), (str% "acc", .str (str% "Assets:Bank:UK"))],
  .map [(str% "date", .date ⟨2016, 3, 1⟩), (str% "dct", .kw (str% "open")), (str% "acc", .str (str% "Expenses:Groceries")), (str% "currencies", .set [.str (str% "NZD"), .str (str% "GBP")])],
  .map [(str% "date", .date ⟨2016, 3, 1⟩), (str% "dct", .kw (str% "open")), (str% "acc", .str (str% "Expenses:Donations")), (str% "currencies", .set [.str (str% "NZD")])],
  .map [(str% "date", .date ⟨2016, 3, 1⟩), (str% "dct", .kw (str% "open")), (str% "acc", .str (str% "Expenses:Donations:Other")), (str% "currencies", .set [.str (str% "NZD")])],
  .map [(str% "date", .date ⟨2016, 3, 1⟩), (str% "dct", .kw (str% "open")), (str% "acc", .str (str% "Expenses:Entertainment:Drinks-and-snacks")), (str% "currencies", .set [.str (str% "NZD")])],
  .map [(str% "date", .date ⟨2016, 3, 1⟩), (str% "dct", .kw (str% "open")), (str% "acc", .str (str% "Income:Tips")), (str% "currencies", .set [.str (str% "NZD")])],
  .map [(str% "date", .date ⟨2016, 3, 1⟩), (str% "dct", .kw (str% "open")), (str% "acc", .str (str% "Income:Unknown")), (str% "currencies", .set [.str (str% "NZD")])],
  .map [(str% "date", .date ⟨2023, 4, 10⟩), (str% "dct", .kw (str% "txn")), (str% "flag", .str (str% "*")), (str% "payee", .str (str% "WIKIMEDIA")), (str% "narration", .str (str% "WIKIMEDIA ;")), (str% "postings", .vec [.map [(str% "acc", .str (str% "Assets:Bank:Current")), (str% "units", .num ⟨-1000, 2⟩), (str% "cur", .str (str% "NZD"))], .map [(str% "acc", .str (str% "Expenses:Donations"))]])],
  .map [(str% "date", .date ⟨2023, 4, 12⟩), (str% "dct", .kw (str% "txn")), (str% "flag", .str (str% "*")), (str% "payee", .str (str% "Tear Fund")), (str% "postings", .vec [.map [(str% "acc", .str (str% "Assets:Bank:Current")), (str% "units", .num ⟨-2000, 2⟩), (str% "cur", .str (str% "NZD"))], .map [(str% "acc", .str (str% "Expenses:Donations:Other"))]])],
  .map [(str% "date", .date ⟨2023, 5, 29⟩), (str% "dct", .kw (str% "txn")), (str% "flag", .str (str% "*")), (str% "payee", .str (str% "New World Gardens North East Va")), (str% "narration", .str (str% "Very hungry")), (str% "postings", .vec [.map [(str% "acc", .str (str% "Expenses:Groceries")), (str% "units", .num ⟨1000, 2⟩), (str% "cur", .str (str% "NZD"))], .map [(str% "acc", .str (str% "Assets:Bank:Current"))]])],
  .map [(str% "date", .date ⟨2023, 5, 30⟩), (str% "dct", .kw (str% "txn")), (str% "flag", .str (str% "*")), (str% "payee", .str (str% "Countdown")), (str% "narration", .str (str% "For a friend")), (str% "postings", .vec [.map [(str% "acc", .str (str% "Expenses:Groceries")), (str% "units", .num ⟨1750, 2⟩), (str% "cur", .str (str% "NZD"))], .map [(str% "acc", .str (str% "Assets:Bank:Current"))]])],
  .map [(str% "date", .date ⟨2023, 5, 31⟩), (str% "dct", .kw (str% "txn")), (str% "flag", .str (str% "*")), (str% "payee", .str (str% "EMERSON S TAPROOM DUNEDIN")), (str% "narration", .str (str% "With Kevin")), (str% "postings", .vec [.map [(str% "acc", .str (str% "Expenses:Entertainment:Drinks-and-snacks")), (str% "units", .num ⟨2500, 2⟩), (str% "cur", .str (str% "NZD"))], .map [(str% "acc", .str (str% "Assets:Bank:Current"))]])],
  .map [(str% "date", .date ⟨2023, 6, 1⟩), (str% "dct", .kw (str% "txn")), (str% "flag", .str (str% "*")), (str% "narration", .str (str% "UK groceries")), (str% "postings", .vec [.map [(str% "acc", .str (str% "Expenses:Groceries")), (str% "units", .num ⟨500, 2⟩), (str% "cur", .str (str% "GBP"))], .map [(str% "acc", .str (str% "Assets:Bank:UK"))]])],
  .map [(str% "date", .date ⟨2023, 6, 10⟩), (str% "dct", .kw (str% "txn")), (str% "flag", .str (str% "*")), (str% "payee", .str (str% "EMERSON S TAPROOM DUNEDIN")), (str% "narration", .str (str% "With Blair")), (str% "postings", .vec [.map [(str% "acc", .str (str% "Expenses:Entertainment:Drinks-and-snacks")), (str% "units", .num ⟨2300, 2⟩), (str% "cur", .str (str% "NZD"))], .map [(str% "acc", .str (str% "Assets:Bank:Current"))]])],
  .map [(str% "date", .date ⟨2025, 3, 31⟩), (str% "dct", .kw (str% "txn")), (str% "flag", .str (str% "*")), (str% "payee", .str (str% "INTEREST EARNED")), (str% "narration", .str (str% "INTEREST EARNED ;")), (str% "postings", .vec [.map [(str% "acc", .str (str% "Assets:Bank:Current")), (str% "units", .num ⟨472, 2⟩), (str% "cur", .str (str% "NZD"))], .map [(str% "acc", .str (str% "Income:Unknown"))]]), (str% "metadata", .map [(str% "txnid", .map [(str% "string", .str (str% "99-1234-0123456-07.31Mar2025.1"))])])]]

/-- The library. -/
def library : BookLib := Toy.lib

/-- The model, run on it. -/
def result := loaded library {} [] ledger

/-- test-cases/simple.golden/inventory -/
example : inventoryIs result
    (str% "Assets:Bank:Current -100.78 NZD\nAssets:Bank:UK -5.00 GBP\nExpenses:Donations 10.00 NZD\nExpenses:Donations:Other 20.00 NZD\nExpenses:Entertainment:Drinks-and-snacks 48.00 NZD\nExpenses:Groceries 5.00 GBP\n 27.50 NZD\nIncome:Unknown -4.72 NZD\n") = true := by decide +kernel

/-- test-cases/simple.golden/rollup -/
example : rollupIs result
    (str% "Assets -100.78 \nAssets:Bank -100.78 \nAssets:Bank:Current -100.78\nExpenses 105.50 \nExpenses:Donations 30.00 10.00\nExpenses:Donations:Other 20.00\nExpenses:Entertainment 48.00 \nExpenses:Entertainment:Drinks-and-snacks 48.00\nExpenses:Groceries 27.50\nIncome -4.72 \nIncome:Unknown -4.72\n") = true := by decide +kernel

/-- test-cases/simple.golden/journal -/
example : journalIs result
    (str% "2023-04-10 Assets:Bank:Current WIKIMEDIA WIKIMEDIA ; -10.00 NZD -10.00 NZD\n2023-04-10 Expenses:Donations WIKIMEDIA WIKIMEDIA ; 10.00 NZD \n2023-04-12 Assets:Bank:Current Tear Fund -20.00 NZD -20.00 NZD\n2023-04-12 Expenses:Donations:Other Tear Fund 20.00 NZD \n2023-05-29 Expenses:Groceries New World Gardens North East Va Very hungry 10.00 NZD 10.00 NZD\n2023-05-29 Assets:Bank:Current New World Gardens North East Va Very hungry -10.00 NZD \n2023-05-30 Expenses:Groceries Countdown For a friend 17.50 NZD 17.50 NZD\n2023-05-30 Assets:Bank:Current Countdown For a friend -17.50 NZD \n2023-05-31 Expenses:Entertainment:Drinks-and-snacks EMERSON S TAPROOM DUNEDIN With Kevin 25.00 NZD 25.00 NZD\n2023-05-31 Assets:Bank:Current EMERSON S TAPROOM DUNEDIN With Kevin -25.00 NZD \n2023-06-01 Expenses:Groceries UK groceries 5.00 GBP 5.00 GBP\n2023-06-01 Assets:Bank:UK UK groceries -5.00 GBP \n2023-06-10 Expenses:Entertainment:Drinks-and-snacks EMERSON S TAPROOM DUNEDIN With Blair 23.00 NZD 23.00 NZD\n2023-06-10 Assets:Bank:Current EMERSON S TAPROOM DUNEDIN With Blair -23.00 NZD \n2025-03-31 Assets:Bank:Current INTEREST EARNED INTEREST EARNED ; 4.72 NZD 4.72 NZD\n2025-03-31 Income:Unknown INTEREST EARNED INTEREST EARNED ; -4.72 NZD \n") = true := by decide +kernel

end Simple
end Recorded
end Limabean
