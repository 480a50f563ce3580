/-
The test case test-cases/auto-accounts-plugin.beancount. Transactions are booked by the small library.
-/
import Verif.Recorded.Lawful

namespace Limabean
namespace Recorded
namespace AutoAccountsPlugin
open Clj

set_option maxRecDepth 100000

/-- test-cases/auto-accounts-plugin.beancount, parsed. -/
def ledger : List Data := [
  .map [(str% "date", .date ⟨2020, 1, 1⟩), (str% "dct", .kw (str% "open")), (str% "acc", .str (str% "Assets:Bank:Current")), (str% "span", .vec [.num ⟨0, 0⟩, .num ⟨93, 0⟩, .num ⟨130, 0⟩])],
  .map [(str% "date", .date ⟨2023, 4, 10⟩), (str% "dct", .kw (str% "txn")), (str% "flag", .str (str% "*")), (str% "payee", .str (str% "WIKIMEDIA")), (str% "narration", .str (str% "WIKIMEDIA ;")), (str% "postings", .vec [.map [(str% "acc", .str (str% "Assets:Bank:Current")), (str% "units", .num ⟨-1000, 2⟩), (str% "cur", .str (str% "NZD")), (str% "span", .vec [.num ⟨0, 0⟩, .num ⟨171, 0⟩, .num ⟨202, 0⟩])], .map [(str% "acc", .str (str% "Expenses:Donations")), (str% "span", .vec [.num ⟨0, 0⟩, .num ⟨205, 0⟩, .num ⟨223, 0⟩])]]), (str% "span", .vec [.num ⟨0, 0⟩, .num ⟨130, 0⟩, .num ⟨225, 0⟩])],
  .map [(str% "date", .date ⟨2023, 4, 12⟩), (str% "dct", .kw (str% "txn")), (str% "flag", .str (str% "*")), (str% "payee", .str (str% "Tear Fund")), (str% "postings", .vec [.map [(str% "acc", .str (str% "Assets:Bank:Current")), (str% "units", .num ⟨-2000, 2⟩), (str% "cur", .str (str% "NZD")), (str% "span", .vec [.num ⟨0, 0⟩, .num ⟨255, 0⟩, .num ⟨286, 0⟩])], .map [(str% "acc", .str (str% "Expenses:Donations:Other")), (str% "span", .vec [.num ⟨0, 0⟩, .num ⟨289, 0⟩, .num ⟨313, 0⟩])]]), (str% "span", .vec [.num ⟨0, 0⟩, .num ⟨225, 0⟩, .num ⟨314, 0⟩])]]

/-- The library. -/
def library : BookLib := Toy.lib

/-- The model, run on it. -/
def result := loaded library {} [(str% "beancount.plugins.auto_accounts", none)] ledger

/-- test-cases/auto-accounts-plugin.golden/raw-xf-directives.edn -/
def rawEdn : List Data := [
  .map [(str% "acc", .str (str% "Assets:Bank:Current")), (str% "date", .date ⟨2020, 1, 1⟩), (str% "dct", .kw (str% "open")), (str% "span", .vec [.num ⟨0, 0⟩, .num ⟨93, 0⟩, .num ⟨130, 0⟩])],
  .map [(str% "acc", .str (str% "Expenses:Donations")), (str% "date", .date ⟨2023, 4, 10⟩), (str% "dct", .kw (str% "open")), (str% "metadata", .map [(str% "auto", .nil)]), (str% "provenance", .vec [.str (str% "beancount.plugins.auto_accounts")]), (str% "span-p", .vec [.num ⟨1, 0⟩, .num ⟨0, 0⟩, .num ⟨43, 0⟩])],
  .map [(str% "date", .date ⟨2023, 4, 10⟩), (str% "dct", .kw (str% "txn")), (str% "flag", .str (str% "*")), (str% "narration", .str (str% "WIKIMEDIA ;")), (str% "payee", .str (str% "WIKIMEDIA")), (str% "postings", .vec [.map [(str% "acc", .str (str% "Assets:Bank:Current")), (str% "cur", .str (str% "NZD")), (str% "span", .vec [.num ⟨0, 0⟩, .num ⟨171, 0⟩, .num ⟨202, 0⟩]), (str% "units", .num ⟨-1000, 2⟩)], .map [(str% "acc", .str (str% "Expenses:Donations")), (str% "span", .vec [.num ⟨0, 0⟩, .num ⟨205, 0⟩, .num ⟨223, 0⟩])]]), (str% "span", .vec [.num ⟨0, 0⟩, .num ⟨130, 0⟩, .num ⟨225, 0⟩])],
  .map [(str% "acc", .str (str% "Expenses:Donations:Other")), (str% "date", .date ⟨2023, 4, 12⟩), (str% "dct", .kw (str% "open")), (str% "metadata", .map [(str% "auto", .nil)]), (str% "provenance", .vec [.str (str% "beancount.plugins.auto_accounts")]), (str% "span-p", .vec [.num ⟨1, 0⟩, .num ⟨43, 0⟩, .num ⟨92, 0⟩])],
  .map [(str% "date", .date ⟨2023, 4, 12⟩), (str% "dct", .kw (str% "txn")), (str% "flag", .str (str% "*")), (str% "payee", .str (str% "Tear Fund")), (str% "postings", .vec [.map [(str% "acc", .str (str% "Assets:Bank:Current")), (str% "cur", .str (str% "NZD")), (str% "span", .vec [.num ⟨0, 0⟩, .num ⟨255, 0⟩, .num ⟨286, 0⟩]), (str% "units", .num ⟨-2000, 2⟩)], .map [(str% "acc", .str (str% "Expenses:Donations:Other")), (str% "span", .vec [.num ⟨0, 0⟩, .num ⟨289, 0⟩, .num ⟨313, 0⟩])]]), (str% "span", .vec [.num ⟨0, 0⟩, .num ⟨225, 0⟩, .num ⟨314, 0⟩])]]

example : rawAre result rawEdn = true := by decide +kernel

/-- test-cases/auto-accounts-plugin.golden/raw-xf-directives.fyi.beancount -/
example : textIs rawEdn
    (str% "2020-01-01 open Assets:Bank:Current\n\n2023-04-10 open Expenses:Donations\n  auto:\n\n2023-04-10 * \"WIKIMEDIA\" \"WIKIMEDIA ;\"\n  Assets:Bank:Current -10.00 NZD\n  Expenses:Donations\n\n2023-04-12 open Expenses:Donations:Other\n  auto:\n\n2023-04-12 * \"Tear Fund\" \"\"\n  Assets:Bank:Current -20.00 NZD\n  Expenses:Donations:Other\n") = true := by decide +kernel

end AutoAccountsPlugin
end Recorded
end Limabean
