/-
The test case test-cases/pad.beancount. Transactions are booked by the small library.
-/
import Verif.Recorded.Lawful

namespace Limabean
namespace Recorded
namespace Pad
open Clj

set_option maxRecDepth 100000

/-- test-cases/pad.beancount, parsed. -/
def ledger : List Data := [
  .map [(str% "date", .date ⟨2010, 1, 1⟩), (str% "dct", .kw (str% "open")), (str% "acc", .str (str% "Equity:Opening-Balances"))],
  .map [(str% "date", .date ⟨2010, 1, 1⟩), (str% "dct", .kw (str% "open")), (str% "acc", .str (str% "Assets:Bank"))],
  .map [(str% "date", .date ⟨2010, 1, 1⟩), (str% "dct", .kw (str% "open")), (str% "acc", .str (str% "Expenses:Other"))],
  .map [(str% "date", .date ⟨2010, 1, 2⟩), (str% "dct", .kw (str% "pad")), (str% "acc", .str (str% "Assets:Bank")), (str% "source", .str (str% "Equity:Opening-Balances"))],
  .map [(str% "date", .date ⟨2010, 2, 10⟩), (str% "dct", .kw (str% "balance")), (str% "acc", .str (str% "Assets:Bank")), (str% "units", .num ⟨100, 0⟩), (str% "cur", .str (str% "NZD"))],
  .map [(str% "date", .date ⟨2010, 3, 1⟩), (str% "dct", .kw (str% "txn")), (str% "flag", .str (str% "*")), (str% "narration", .str (str% "Buy something")), (str% "postings", .vec [.map [(str% "acc", .str (str% "Assets:Bank")), (str% "units", .num ⟨-1000, 2⟩), (str% "cur", .str (str% "NZD"))], .map [(str% "acc", .str (str% "Expenses:Other"))]])],
  .map [(str% "date", .date ⟨2010, 3, 2⟩), (str% "dct", .kw (str% "pad")), (str% "acc", .str (str% "Assets:Bank")), (str% "source", .str (str% "Equity:Opening-Balances"))],
  .map [(str% "date", .date ⟨2010, 3, 10⟩), (str% "dct", .kw (str% "balance")), (str% "acc", .str (str% "Assets:Bank")), (str% "units", .num ⟨50, 0⟩), (str% "cur", .str (str% "NZD"))]]

/-- The library. -/
def library : BookLib := Toy.lib

/-- The model, run on it. -/
def result := loaded library {} [] ledger

/-- test-cases/pad.golden/journal -/
example : journalIs result
    (str% "2010-01-02 Assets:Bank 'P 100 NZD 100 NZD\n2010-01-02 Equity:Opening-Balances 'P -100 NZD \n2010-03-01 Assets:Bank Buy something -10.00 NZD -10.00 NZD\n2010-03-01 Expenses:Other Buy something 10.00 NZD \n2010-03-02 Assets:Bank 'P -40.00 NZD -40.00 NZD\n2010-03-02 Equity:Opening-Balances 'P 40.00 NZD \n") = true := by decide +kernel

end Pad
end Recorded
end Limabean
