/-
The test case test-cases/plugins.beancount. Transactions are booked by the small library.
-/
import Verif.Recorded.Lawful

namespace Limabean
namespace Recorded
namespace Plugins
open Clj

set_option maxRecDepth 100000

/-- test-cases/plugins.beancount, parsed. -/
def ledger : List Data := [
  .map [(str% "date", .date ⟨2020, 1, 1⟩), (str% "dct", .kw (str% "open")), (str% "acc", .str (str% "Assets:Bank:Current")), (str% "span", .vec [.num ⟨0, 0⟩, .num ⟨219, 0⟩, .num ⟨256, 0⟩])],
  .map [(str% "date", .date ⟨2023, 4, 10⟩), (str% "dct", .kw (str% "txn")), (str% "flag", .str (str% "*")), (str% "payee", .str (str% "WIKIMEDIA")), (str% "narration", .str (str% "WIKIMEDIA ;")), (str% "postings", .vec [.map [(str% "acc", .str (str% "Assets:Bank:Current")), (str% "units", .num ⟨-1000, 2⟩), (str% "cur", .str (str% "NZD")), (str% "span", .vec [.num ⟨0, 0⟩, .num ⟨297, 0⟩, .num ⟨328, 0⟩])], .map [(str% "acc", .str (str% "Expenses:Donations")), (str% "span", .vec [.num ⟨0, 0⟩, .num ⟨331, 0⟩, .num ⟨349, 0⟩])]]), (str% "span", .vec [.num ⟨0, 0⟩, .num ⟨256, 0⟩, .num ⟨351, 0⟩])],
  .map [(str% "date", .date ⟨2023, 4, 12⟩), (str% "dct", .kw (str% "txn")), (str% "flag", .str (str% "*")), (str% "payee", .str (str% "Tear Fund")), (str% "postings", .vec [.map [(str% "acc", .str (str% "Assets:Bank:Current")), (str% "units", .num ⟨-2000, 2⟩), (str% "cur", .str (str% "NZD")), (str% "span", .vec [.num ⟨0, 0⟩, .num ⟨381, 0⟩, .num ⟨412, 0⟩])], .map [(str% "acc", .str (str% "Expenses:Donations:Other")), (str% "span", .vec [.num ⟨0, 0⟩, .num ⟨415, 0⟩, .num ⟨439, 0⟩])]]), (str% "span", .vec [.num ⟨0, 0⟩, .num ⟨351, 0⟩, .num ⟨441, 0⟩])],
  .map [(str% "date", .date ⟨2026, 1, 31⟩), (str% "dct", .kw (str% "close")), (str% "acc", .str (str% "Expenses:Donations:Other")), (str% "span", .vec [.num ⟨0, 0⟩, .num ⟨441, 0⟩, .num ⟨483, 0⟩])]]

/-- The library. -/
def library : BookLib := Toy.lib

/-- The model, run on it. -/
def result := loaded library {} [(str% "beancount.plugins.auto_accounts", none), (str% "limabean.test.plugins.set-metadata", some (str% "{:open {:opened-with {:string \"can opener\"}} :close {:finished {:bool true}}}"))] ledger

/-- test-cases/plugins.golden/raw-xf-directives.edn -/
def rawEdn : List Data := [
  .map [(str% "acc", .str (str% "Assets:Bank:Current")), (str% "date", .date ⟨2020, 1, 1⟩), (str% "dct", .kw (str% "open")), (str% "metadata", .map [(str% "opened-with", .map [(str% "string", .str (str% "can opener"))])]), (str% "provenance", .vec [.str (str% "limabean.test.plugins.set-metadata")]), (str% "span", .vec [.num ⟨0, 0⟩, .num ⟨219, 0⟩, .num ⟨256, 0⟩]), (str% "span-p", .vec [.num ⟨1, 0⟩, .num ⟨0, 0⟩, .num ⟨64, 0⟩])],
  .map [(str% "acc", .str (str% "Expenses:Donations")), (str% "date", .date ⟨2023, 4, 10⟩), (str% "dct", .kw (str% "open")), (str% "metadata", .map [(str% "auto", .nil), (str% "opened-with", .map [(str% "string", .str (str% "can opener"))])]), (str% "provenance", .vec [.str (str% "beancount.plugins.auto_accounts"), .str (str% "limabean.test.plugins.set-metadata")]), (str% "span-p", .vec [.num ⟨2, 0⟩, .num ⟨0, 0⟩, .num ⟨71, 0⟩])],
  .map [(str% "date", .date ⟨2023, 4, 10⟩), (str% "dct", .kw (str% "txn")), (str% "flag", .str (str% "*")), (str% "narration", .str (str% "WIKIMEDIA ;")), (str% "payee", .str (str% "WIKIMEDIA")), (str% "postings", .vec [.map [(str% "acc", .str (str% "Assets:Bank:Current")), (str% "cur", .str (str% "NZD")), (str% "span", .vec [.num ⟨0, 0⟩, .num ⟨297, 0⟩, .num ⟨328, 0⟩]), (str% "units", .num ⟨-1000, 2⟩)], .map [(str% "acc", .str (str% "Expenses:Donations")), (str% "span", .vec [.num ⟨0, 0⟩, .num ⟨331, 0⟩, .num ⟨349, 0⟩])]]), (str% "span", .vec [.num ⟨0, 0⟩, .num ⟨256, 0⟩, .num ⟨351, 0⟩])],
  .map [(str% "acc", .str (str% "Expenses:Donations:Other")), (str% "date", .date ⟨2023, 4, 12⟩), (str% "dct", .kw (str% "open")), (str% "metadata", .map [(str% "auto", .nil), (str% "opened-with", .map [(str% "string", .str (str% "can opener"))])]), (str% "provenance", .vec [.str (str% "beancount.plugins.auto_accounts"), .str (str% "limabean.test.plugins.set-metadata")]), (str% "span-p", .vec [.num ⟨2, 0⟩, .num ⟨71, 0⟩, .num ⟨148, 0⟩])],
  .map [(str% "date", .date ⟨2023, 4, 12⟩), (str% "dct", .kw (str% "txn")), (str% "flag", .str (str% "*")), (str% "payee", .str (str% "Tear Fund")), (str% "postings", .vec [.map [(str% "acc", .str (str% "Assets:Bank:Current")), (str% "cur", .str (str% "NZD")), (str% "span", .vec [.num ⟨0, 0⟩, .num ⟨381, 0⟩, .num ⟨412, 0⟩]), (str% "units", .num ⟨-2000, 2⟩)], .map [(str% "acc", .str (str% "Expenses:Donations:Other")), (str% "span", .vec [.num ⟨0, 0⟩, .num ⟨415, 0⟩, .num ⟨439, 0⟩])]]), (str% "span", .vec [.num ⟨0, 0⟩, .num ⟨351, 0⟩, .num ⟨441, 0⟩])],
  .map [(str% "acc", .str (str% "Expenses:Donations:Other")), (str% "date", .date ⟨2026, 1, 31⟩), (str% "dct", .kw (str% "close")), (str% "metadata", .map [(str% "finished", .map [(str% "bool", .bool true)])]), (str% "provenance", .vec [.str (str% "limabean.test.plugins.set-metadata")]), (str% "span", .vec [.num ⟨0, 0⟩, .num ⟨441, 0⟩, .num ⟨483, 0⟩]), (str% "span-p", .vec [.num ⟨1, 0⟩, .num ⟨64, 0⟩, .num ⟨123, 0⟩])]]

example : rawAre result rawEdn = true := by decide +kernel

/-- test-cases/plugins.golden/raw-xf-directives.fyi.beancount -/
example : textIs rawEdn
    (str% "2020-01-01 open Assets:Bank:Current\n  opened-with: \"can opener\"\n\n2023-04-10 open Expenses:Donations\n  auto:\n  opened-with: \"can opener\"\n\n2023-04-10 * \"WIKIMEDIA\" \"WIKIMEDIA ;\"\n  Assets:Bank:Current -10.00 NZD\n  Expenses:Donations\n\n2023-04-12 open Expenses:Donations:Other\n  auto:\n  opened-with: \"can opener\"\n\n2023-04-12 * \"Tear Fund\" \"\"\n  Assets:Bank:Current -20.00 NZD\n  Expenses:Donations:Other\n\n2026-01-31 close Expenses:Donations:Other\n  finished: TRUE\n") = true := by decide +kernel

end Plugins
end Recorded
end Limabean
