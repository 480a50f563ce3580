/-
The test case test-cases/tolerance.beancount. Transactions are booked as recorded.
-/
import Verif.Recorded.Lawful

namespace Limabean
namespace Recorded
namespace Tolerance
open Clj

set_option maxRecDepth 100000

/-- test-cases/tolerance.beancount, parsed. -/
def ledger : List Data := [
  .map [(str% "date", .date ⟨2022, 8, 25⟩), (str% "dct", .kw (str% "open")), (str% "acc", .str (str% "Assets:Cash")), (str% "span", .vec [.num ⟨0, 0⟩, .num ⟨221, 0⟩, .num ⟨249, 0⟩])],
  .map [(str% "date", .date ⟨2022, 8, 25⟩), (str% "dct", .kw (str% "open")), (str% "acc", .str (str% "Expenses:Other-Expense")), (str% "span", .vec [.num ⟨0, 0⟩, .num ⟨249, 0⟩, .num ⟨289, 0⟩])],
  .map [(str% "date", .date ⟨2022, 8, 25⟩), (str% "dct", .kw (str% "txn")), (str% "flag", .str (str% "*")), (str% "narration", .str (str% "Re install gate")), (str% "postings", .vec [.map [(str% "acc", .str (str% "Assets:Cash")), (str% "units", .num ⟨-3000000, 0⟩), (str% "cur", .str (str% "IDR")), (str% "span", .vec [.num ⟨0, 0⟩, .num ⟨325, 0⟩, .num ⟨361, 0⟩])], .map [(str% "acc", .str (str% "Expenses:Other-Expense")), (str% "units", .num ⟨204, 0⟩), (str% "cur", .str (str% "USD")), (str% "price-spec", .map [(str% "cur", .str (str% "IDR")), (str% "total", .num ⟨3000000, 0⟩)]), (str% "span", .vec [.num ⟨0, 0⟩, .num ⟨364, 0⟩, .num ⟨415, 0⟩])]]), (str% "span", .vec [.num ⟨0, 0⟩, .num ⟨289, 0⟩, .num ⟨416, 0⟩])]]

/-- How the library booked its transactions. -/
def answers : List (List (Option Span) × List Interpolated) := [
  ([some ⟨0, 325, 361⟩, some ⟨0, 364, 415⟩], [{ units := ⟨-3000000, 0⟩, currency := str% "IDR" }, { units := ⟨204, 0⟩, currency := str% "USD", price := some { perUnit := ⟨14705882352941176470588235294, 24⟩, cur := str% "IDR", total := some ⟨3000000, 0⟩ } }])]

/-- The library. -/
def library : BookLib := replay answers

example : library.Lawful := replay_lawful (by decide +kernel)

/-- The model, run on it. -/
def result := loaded library { defaults := [(some (str% "IDR"), ⟨0, 0⟩), (some (str% "USD"), ⟨2, 2⟩), (none, ⟨1, 3⟩)] } [] ledger

/-- test-cases/tolerance.golden/directives.edn -/
def directivesEdn : List Data := [
  .map [(str% "acc", .str (str% "Assets:Cash")), (str% "date", .date ⟨2022, 8, 25⟩), (str% "dct", .kw (str% "open")), (str% "idx", .num ⟨0, 0⟩), (str% "span", .vec [.num ⟨0, 0⟩, .num ⟨221, 0⟩, .num ⟨249, 0⟩])],
  .map [(str% "acc", .str (str% "Expenses:Other-Expense")), (str% "date", .date ⟨2022, 8, 25⟩), (str% "dct", .kw (str% "open")), (str% "idx", .num ⟨1, 0⟩), (str% "span", .vec [.num ⟨0, 0⟩, .num ⟨249, 0⟩, .num ⟨289, 0⟩])],
  .map [(str% "date", .date ⟨2022, 8, 25⟩), (str% "dct", .kw (str% "txn")), (str% "flag", .str (str% "*")), (str% "idx", .num ⟨2, 0⟩), (str% "narration", .str (str% "Re install gate")), (str% "postings", .vec [.map [(str% "acc", .str (str% "Assets:Cash")), (str% "cur", .str (str% "IDR")), (str% "idx", .num ⟨0, 0⟩), (str% "span", .vec [.num ⟨0, 0⟩, .num ⟨325, 0⟩, .num ⟨361, 0⟩]), (str% "units", .num ⟨-3000000, 0⟩)], .map [(str% "acc", .str (str% "Expenses:Other-Expense")), (str% "cur", .str (str% "USD")), (str% "idx", .num ⟨1, 0⟩), (str% "price", .map [(str% "cur", .str (str% "IDR")), (str% "per-unit", .num ⟨14705882352941176470588235294, 24⟩), (str% "total", .num ⟨3000000, 0⟩)]), (str% "span", .vec [.num ⟨0, 0⟩, .num ⟨364, 0⟩, .num ⟨415, 0⟩]), (str% "units", .num ⟨204, 0⟩)]]), (str% "span", .vec [.num ⟨0, 0⟩, .num ⟨289, 0⟩, .num ⟨416, 0⟩])]]

example : directivesAre result directivesEdn = true := by decide +kernel

/-- test-cases/tolerance.golden/directives.fyi.beancount -/
example : textIs directivesEdn
    (str% "2022-08-25 open Assets:Cash\n\n2022-08-25 open Expenses:Other-Expense\n\n2022-08-25 * \"Re install gate\"\n  Assets:Cash -3000000 IDR\n  Expenses:Other-Expense 204 USD @ 14705.882352941176470588235294 IDR\n") = true := by decide +kernel

end Tolerance
end Recorded
end Limabean
