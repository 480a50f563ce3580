/-
The test case test-cases/set-narration-plugin-with-config.beancount. Transactions are booked by the small library.
-/
import Verif.Recorded.Lawful

namespace Limabean
namespace Recorded
namespace SetNarrationPluginWithConfig
open Clj

set_option maxRecDepth 100000

/-- test-cases/set-narration-plugin-with-config.beancount, parsed. -/
def ledger : List Data := [
  .map [(str% "date", .date ⟨2016, 3, 1⟩), (str% "dct", .kw (str% "open")), (str% "acc", .str (str% "Assets:Bank:Current")), (str% "span", .vec [.num ⟨0, 0⟩, .num ⟨82, 0⟩, .num ⟨119, 0⟩])],
  .map [(str% "date", .date ⟨2016, 3, 1⟩), (str% "dct", .kw (str% "open")), (str% "acc", .str (str% "Expenses:Groceries")), (str% "span", .vec [.num ⟨0, 0⟩, .num ⟨119, 0⟩, .num ⟨155, 0⟩])],
  .map [(str% "date", .date ⟨2023, 5, 29⟩), (str% "dct", .kw (str% "txn")), (str% "flag", .str (str% "*")), (str% "payee", .str (str% "New World")), (str% "postings", .vec [.map [(str% "acc", .str (str% "Expenses:Groceries")), (str% "units", .num ⟨1000, 2⟩), (str% "cur", .str (str% "NZD")), (str% "span", .vec [.num ⟨0, 0⟩, .num ⟨185, 0⟩, .num ⟨214, 0⟩])], .map [(str% "acc", .str (str% "Assets:Bank:Current")), (str% "span", .vec [.num ⟨0, 0⟩, .num ⟨217, 0⟩, .num ⟨236, 0⟩])]]), (str% "span", .vec [.num ⟨0, 0⟩, .num ⟨155, 0⟩, .num ⟨238, 0⟩])],
  .map [(str% "date", .date ⟨2023, 5, 30⟩), (str% "dct", .kw (str% "txn")), (str% "flag", .str (str% "*")), (str% "payee", .str (str% "Countdown")), (str% "postings", .vec [.map [(str% "acc", .str (str% "Expenses:Groceries")), (str% "units", .num ⟨1750, 2⟩), (str% "cur", .str (str% "NZD")), (str% "span", .vec [.num ⟨0, 0⟩, .num ⟨268, 0⟩, .num ⟨297, 0⟩])], .map [(str% "acc", .str (str% "Assets:Bank:Current")), (str% "span", .vec [.num ⟨0, 0⟩, .num ⟨300, 0⟩, .num ⟨319, 0⟩])]]), (str% "span", .vec [.num ⟨0, 0⟩, .num ⟨238, 0⟩, .num ⟨320, 0⟩])]]

/-- The library. -/
def library : BookLib := Toy.lib

/-- The model, run on it. -/
def result := loaded library {} [(str% "limabean.test.plugins.set-narration", some (str% "{:narration \"Plugins rule ok!\"}"))] ledger

/-- test-cases/set-narration-plugin-with-config.golden/raw-xf-directives.edn -/
def rawEdn : List Data := [
  .map [(str% "acc", .str (str% "Assets:Bank:Current")), (str% "date", .date ⟨2016, 3, 1⟩), (str% "dct", .kw (str% "open")), (str% "span", .vec [.num ⟨0, 0⟩, .num ⟨82, 0⟩, .num ⟨119, 0⟩])],
  .map [(str% "acc", .str (str% "Expenses:Groceries")), (str% "date", .date ⟨2016, 3, 1⟩), (str% "dct", .kw (str% "open")), (str% "span", .vec [.num ⟨0, 0⟩, .num ⟨119, 0⟩, .num ⟨155, 0⟩])],
  .map [(str% "date", .date ⟨2023, 5, 29⟩), (str% "dct", .kw (str% "txn")), (str% "flag", .str (str% "*")), (str% "narration", .str (str% "Plugins rule ok!")), (str% "payee", .str (str% "New World")), (str% "postings", .vec [.map [(str% "acc", .str (str% "Expenses:Groceries")), (str% "cur", .str (str% "NZD")), (str% "span", .vec [.num ⟨0, 0⟩, .num ⟨185, 0⟩, .num ⟨214, 0⟩]), (str% "span-p", .vec [.num ⟨1, 0⟩, .num ⟨43, 0⟩, .num ⟨74, 0⟩]), (str% "units", .num ⟨1000, 2⟩)], .map [(str% "acc", .str (str% "Assets:Bank:Current")), (str% "span", .vec [.num ⟨0, 0⟩, .num ⟨217, 0⟩, .num ⟨236, 0⟩]), (str% "span-p", .vec [.num ⟨1, 0⟩, .num ⟨74, 0⟩, .num ⟨96, 0⟩])]]), (str% "provenance", .vec [.str (str% "limabean.test.plugins.set-narration")]), (str% "span", .vec [.num ⟨0, 0⟩, .num ⟨155, 0⟩, .num ⟨238, 0⟩]), (str% "span-p", .vec [.num ⟨1, 0⟩, .num ⟨0, 0⟩, .num ⟨43, 0⟩])],
  .map [(str% "date", .date ⟨2023, 5, 30⟩), (str% "dct", .kw (str% "txn")), (str% "flag", .str (str% "*")), (str% "narration", .str (str% "Plugins rule ok!")), (str% "payee", .str (str% "Countdown")), (str% "postings", .vec [.map [(str% "acc", .str (str% "Expenses:Groceries")), (str% "cur", .str (str% "NZD")), (str% "span", .vec [.num ⟨0, 0⟩, .num ⟨268, 0⟩, .num ⟨297, 0⟩]), (str% "span-p", .vec [.num ⟨1, 0⟩, .num ⟨139, 0⟩, .num ⟨170, 0⟩]), (str% "units", .num ⟨1750, 2⟩)], .map [(str% "acc", .str (str% "Assets:Bank:Current")), (str% "span", .vec [.num ⟨0, 0⟩, .num ⟨300, 0⟩, .num ⟨319, 0⟩]), (str% "span-p", .vec [.num ⟨1, 0⟩, .num ⟨170, 0⟩, .num ⟨192, 0⟩])]]), (str% "provenance", .vec [.str (str% "limabean.test.plugins.set-narration")]), (str% "span", .vec [.num ⟨0, 0⟩, .num ⟨238, 0⟩, .num ⟨320, 0⟩]), (str% "span-p", .vec [.num ⟨1, 0⟩, .num ⟨96, 0⟩, .num ⟨139, 0⟩])]]

example : rawAre result rawEdn = true := by decide +kernel

/-- test-cases/set-narration-plugin-with-config.golden/raw-xf-directives.fyi.beancount -/
example : textIs rawEdn
    (str% "2016-03-01 open Assets:Bank:Current\n\n2016-03-01 open Expenses:Groceries\n\n2023-05-29 * \"New World\" \"Plugins rule ok!\"\n  Expenses:Groceries 10.00 NZD\n  Assets:Bank:Current\n\n2023-05-30 * \"Countdown\" \"Plugins rule ok!\"\n  Expenses:Groceries 17.50 NZD\n  Assets:Bank:Current\n") = true := by decide +kernel

end SetNarrationPluginWithConfig
end Recorded
end Limabean
