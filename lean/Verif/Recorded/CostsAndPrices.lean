/-
The test case test-cases/costs-and-prices.beancount. Transactions are booked as recorded.
-/
import Verif.Recorded.Lawful

namespace Limabean
namespace Recorded
namespace CostsAndPrices
open Clj

set_option maxRecDepth 100000

/-- test-cases/costs-and-prices.beancount, parsed. -/
def ledger : List Data := [
  .map [(str% "date", .date ⟨2025, 1, 1⟩), (str% "dct", .kw (str% "open")), (str% "acc", .str (str% "Assets:UK:Cash")), (str% "span", .vec [.num ⟨0, 0⟩, .num ⟨0, 0⟩, .num ⟨31, 0⟩])],
  .map [(str% "date", .date ⟨2025, 1, 1⟩), (str% "dct", .kw (str% "open")), (str% "acc", .str (str% "Assets:NZ:Cash")), (str% "span", .vec [.num ⟨0, 0⟩, .num ⟨31, 0⟩, .num ⟨62, 0⟩])],
  .map [(str% "date", .date ⟨2025, 1, 1⟩), (str% "dct", .kw (str% "txn")), (str% "flag", .str (str% "*")), (str% "narration", .str (str% "price per-unit")), (str% "postings", .vec [.map [(str% "acc", .str (str% "Assets:UK:Cash")), (str% "units", .num ⟨-100000, 2⟩), (str% "cur", .str (str% "GBP")), (str% "price-spec", .map [(str% "cur", .str (str% "NZD")), (str% "per-unit", .num ⟨1914, 3⟩)]), (str% "span", .vec [.num ⟨0, 0⟩, .num ⟨129, 0⟩, .num ⟨172, 0⟩])], .map [(str% "acc", .str (str% "Assets:NZ:Cash")), (str% "span", .vec [.num ⟨0, 0⟩, .num ⟨175, 0⟩, .num ⟨189, 0⟩])]]), (str% "span", .vec [.num ⟨0, 0⟩, .num ⟨97, 0⟩, .num ⟨191, 0⟩])],
  .map [(str% "date", .date ⟨2025, 2, 1⟩), (str% "dct", .kw (str% "txn")), (str% "flag", .str (str% "*")), (str% "narration", .str (str% "price total")), (str% "postings", .vec [.map [(str% "acc", .str (str% "Assets:UK:Cash")), (str% "units", .num ⟨-19700, 2⟩), (str% "cur", .str (str% "GBP")), (str% "price-spec", .map [(str% "cur", .str (str% "NZD")), (str% "total", .num ⟨38157, 2⟩)]), (str% "span", .vec [.num ⟨0, 0⟩, .num ⟨220, 0⟩, .num ⟨265, 0⟩])], .map [(str% "acc", .str (str% "Assets:NZ:Cash")), (str% "span", .vec [.num ⟨0, 0⟩, .num ⟨268, 0⟩, .num ⟨282, 0⟩])]]), (str% "span", .vec [.num ⟨0, 0⟩, .num ⟨191, 0⟩, .num ⟨284, 0⟩])],
  .map [(str% "date", .date ⟨2025, 2, 5⟩), (str% "dct", .kw (str% "txn")), (str% "flag", .str (str% "*")), (str% "narration", .str (str% "price total weight")), (str% "postings", .vec [.map [(str% "acc", .str (str% "Assets:UK:Cash")), (str% "units", .num ⟨-19700, 2⟩), (str% "cur", .str (str% "GBP")), (str% "price-spec", .map [(str% "cur", .str (str% "NZD"))]), (str% "span", .vec [.num ⟨0, 0⟩, .num ⟨320, 0⟩, .num ⟨357, 0⟩])], .map [(str% "acc", .str (str% "Assets:NZ:Cash")), (str% "units", .num ⟨-38157, 2⟩), (str% "cur", .str (str% "NZD")), (str% "span", .vec [.num ⟨0, 0⟩, .num ⟨360, 0⟩, .num ⟨391, 0⟩])]]), (str% "span", .vec [.num ⟨0, 0⟩, .num ⟨284, 0⟩, .num ⟨393, 0⟩])],
  .map [(str% "date", .date ⟨2025, 3, 1⟩), (str% "dct", .kw (str% "open")), (str% "acc", .str (str% "Assets:Shares:IBM")), (str% "span", .vec [.num ⟨0, 0⟩, .num ⟨62, 0⟩, .num ⟨97, 0⟩])],
  .map [(str% "date", .date ⟨2025, 3, 1⟩), (str% "dct", .kw (str% "txn")), (str% "flag", .str (str% "*")), (str% "narration", .str (str% "cost per-unit")), (str% "postings", .vec [.map [(str% "acc", .str (str% "Assets:Shares:IBM")), (str% "units", .num ⟨5, 0⟩), (str% "cur", .str (str% "IBM")), (str% "cost-spec", .map [(str% "cur", .str (str% "NZD")), (str% "per-unit", .num ⟨30000, 2⟩)]), (str% "span", .vec [.num ⟨0, 0⟩, .num ⟨424, 0⟩, .num ⟨470, 0⟩])], .map [(str% "acc", .str (str% "Assets:NZ:Cash")), (str% "span", .vec [.num ⟨0, 0⟩, .num ⟨473, 0⟩, .num ⟨487, 0⟩])]]), (str% "span", .vec [.num ⟨0, 0⟩, .num ⟨393, 0⟩, .num ⟨489, 0⟩])],
  .map [(str% "date", .date ⟨2025, 4, 1⟩), (str% "dct", .kw (str% "txn")), (str% "flag", .str (str% "*")), (str% "narration", .str (str% "cost total")), (str% "postings", .vec [.map [(str% "acc", .str (str% "Assets:Shares:IBM")), (str% "units", .num ⟨3, 0⟩), (str% "cur", .str (str% "IBM")), (str% "cost-spec", .map [(str% "cur", .str (str% "NZD")), (str% "total", .num ⟨91000, 2⟩)]), (str% "span", .vec [.num ⟨0, 0⟩, .num ⟨517, 0⟩, .num ⟨565, 0⟩])], .map [(str% "acc", .str (str% "Assets:NZ:Cash")), (str% "span", .vec [.num ⟨0, 0⟩, .num ⟨568, 0⟩, .num ⟨582, 0⟩])]]), (str% "span", .vec [.num ⟨0, 0⟩, .num ⟨489, 0⟩, .num ⟨584, 0⟩])],
  .map [(str% "date", .date ⟨2025, 4, 5⟩), (str% "dct", .kw (str% "txn")), (str% "flag", .str (str% "*")), (str% "narration", .str (str% "cost total weight")), (str% "postings", .vec [.map [(str% "acc", .str (str% "Assets:Shares:IBM")), (str% "units", .num ⟨3, 0⟩), (str% "cur", .str (str% "IBM")), (str% "cost-spec", .map [(str% "cur", .str (str% "NZD"))]), (str% "span", .vec [.num ⟨0, 0⟩, .num ⟨619, 0⟩, .num ⟨658, 0⟩])], .map [(str% "acc", .str (str% "Assets:NZ:Cash")), (str% "units", .num ⟨-91000, 2⟩), (str% "cur", .str (str% "NZD")), (str% "span", .vec [.num ⟨0, 0⟩, .num ⟨661, 0⟩, .num ⟨692, 0⟩])]]), (str% "span", .vec [.num ⟨0, 0⟩, .num ⟨584, 0⟩, .num ⟨693, 0⟩])]]

/-- How the library booked its transactions. -/
def answers : List (List (Option Span) × List Interpolated) := [
  ([some ⟨0, 129, 172⟩, some ⟨0, 175, 189⟩], [{ units := ⟨-100000, 2⟩, currency := str% "GBP", price := some { perUnit := ⟨1914, 3⟩, cur := str% "NZD", total := some ⟨-191400000, 5⟩ } }, { units := ⟨191400, 2⟩, currency := str% "NZD" }]),
  ([some ⟨0, 220, 265⟩, some ⟨0, 268, 282⟩], [{ units := ⟨-19700, 2⟩, currency := str% "GBP", price := some { perUnit := ⟨19369035532994923857868020305, 28⟩, cur := str% "NZD", total := some ⟨38157, 2⟩ } }, { units := ⟨-38157, 2⟩, currency := str% "NZD" }]),
  ([some ⟨0, 320, 357⟩, some ⟨0, 360, 391⟩], [{ units := ⟨-19700, 2⟩, currency := str% "GBP", price := some { perUnit := ⟨19369035532994923857868020305, 28⟩, cur := str% "NZD", total := some ⟨38157, 2⟩ } }, { units := ⟨-38157, 2⟩, currency := str% "NZD" }]),
  ([some ⟨0, 424, 470⟩, some ⟨0, 473, 487⟩], [{ units := ⟨5, 0⟩, currency := str% "IBM", cost := some [{ cur := str% "NZD", units := ⟨5, 0⟩, date := ⟨2025, 3, 1⟩, perUnit := ⟨30000, 2⟩, total := ⟨150000, 2⟩ }] }, { units := ⟨-150000, 2⟩, currency := str% "NZD" }]),
  ([some ⟨0, 517, 565⟩, some ⟨0, 568, 582⟩], [{ units := ⟨3, 0⟩, currency := str% "IBM", cost := some [{ cur := str% "NZD", units := ⟨3, 0⟩, date := ⟨2025, 4, 1⟩, perUnit := ⟨30333333333333333333333333333, 26⟩, total := ⟨91000, 2⟩ }] }, { units := ⟨-91000, 2⟩, currency := str% "NZD" }]),
  ([some ⟨0, 619, 658⟩, some ⟨0, 661, 692⟩], [{ units := ⟨3, 0⟩, currency := str% "IBM", cost := some [{ cur := str% "NZD", units := ⟨3, 0⟩, date := ⟨2025, 4, 5⟩, perUnit := ⟨30333333333333333333333333333, 26⟩, total := ⟨91000, 2⟩ }] }, { units := ⟨-91000, 2⟩, currency := str% "NZD" }])]

/-- The library. -/
def library : BookLib := replay answers

example : library.Lawful := replay_lawful (by decide +kernel)

/-- The model, run on it. -/
def result := loaded library {} [] ledger

/-- test-cases/costs-and-prices.golden/directives.edn -/
def directivesEdn : List Data := [
  .map [(str% "acc", .str (str% "Assets:UK:Cash")), (str% "date", .date ⟨2025, 1, 1⟩), (str% "dct", .kw (str% "open")), (str% "idx", .num ⟨0, 0⟩), (str% "span", .vec [.num ⟨0, 0⟩, .num ⟨0, 0⟩, .num ⟨31, 0⟩])],
  .map [(str% "acc", .str (str% "Assets:NZ:Cash")), (str% "date", .date ⟨2025, 1, 1⟩), (str% "dct", .kw (str% "open")), (str% "idx", .num ⟨1, 0⟩), (str% "span", .vec [.num ⟨0, 0⟩, .num ⟨31, 0⟩, .num ⟨62, 0⟩])],
  .map [(str% "date", .date ⟨2025, 1, 1⟩), (str% "dct", .kw (str% "txn")), (str% "flag", .str (str% "*")), (str% "idx", .num ⟨2, 0⟩), (str% "narration", .str (str% "price per-unit")), (str% "postings", .vec [.map [(str% "acc", .str (str% "Assets:UK:Cash")), (str% "cur", .str (str% "GBP")), (str% "idx", .num ⟨0, 0⟩), (str% "price", .map [(str% "cur", .str (str% "NZD")), (str% "per-unit", .num ⟨1914, 3⟩), (str% "total", .num ⟨-191400000, 5⟩)]), (str% "span", .vec [.num ⟨0, 0⟩, .num ⟨129, 0⟩, .num ⟨172, 0⟩]), (str% "units", .num ⟨-100000, 2⟩)], .map [(str% "acc", .str (str% "Assets:NZ:Cash")), (str% "cur", .str (str% "NZD")), (str% "idx", .num ⟨1, 0⟩), (str% "span", .vec [.num ⟨0, 0⟩, .num ⟨175, 0⟩, .num ⟨189, 0⟩]), (str% "units", .num ⟨191400, 2⟩)]]), (str% "span", .vec [.num ⟨0, 0⟩, .num ⟨97, 0⟩, .num ⟨191, 0⟩])],
  .map [(str% "date", .date ⟨2025, 2, 1⟩), (str% "dct", .kw (str% "txn")), (str% "flag", .str (str% "*")), (str% "idx", .num ⟨3, 0⟩), (str% "narration", .str (str% "price total")), (str% "postings", .vec [.map [(str% "acc", .str (str% "Assets:UK:Cash")), (str% "cur", .str (str% "GBP")), (str% "idx", .num ⟨0, 0⟩), (str% "price", .map [(str% "cur", .str (str% "NZD")), (str% "per-unit", .num ⟨19369035532994923857868020305, 28⟩), (str% "total", .num ⟨38157, 2⟩)]), (str% "span", .vec [.num ⟨0, 0⟩, .num ⟨220, 0⟩, .num ⟨265, 0⟩]), (str% "units", .num ⟨-19700, 2⟩)], .map [(str% "acc", .str (str% "Assets:NZ:Cash")), (str% "cur", .str (str% "NZD")), (str% "idx", .num ⟨1, 0⟩), (str% "span", .vec [.num ⟨0, 0⟩, .num ⟨268, 0⟩, .num ⟨282, 0⟩]), (str% "units", .num ⟨-38157, 2⟩)]]), (str% "span", .vec [.num ⟨0, 0⟩, .num ⟨191, 0⟩, .num ⟨284, 0⟩])],
  .map [(str% "date", .date ⟨2025, 2, 5⟩), (str% "dct", .kw (str% "txn")), (str% "flag", .str (str% "*")), (str% "idx", .num ⟨4, 0⟩), (str% "narration", .str (str% "price total weight")), (str% "postings", .vec [.map [(str% "acc", .str (str% "Assets:UK:Cash")), (str% "cur", .str (str% "GBP")), (str% "idx", .num ⟨0, 0⟩), (str% "price", .map [(str% "cur", .str (str% "NZD")), (str% "per-unit", .num ⟨19369035532994923857868020305, 28⟩), (str% "total", .num ⟨38157, 2⟩)]), (str% "span", .vec [.num ⟨0, 0⟩, .num ⟨320, 0⟩, .num ⟨357, 0⟩]), (str% "units", .num ⟨-19700, 2⟩)], .map [(str% "acc", .str (str% "Assets:NZ:Cash")), (str% "cur", .str (str% "NZD")), (str% "idx", .num ⟨1, 0⟩), (str% "span", .vec [.num ⟨0, 0⟩, .num ⟨360, 0⟩, .num ⟨391, 0⟩]), (str% "units", .num ⟨-38157, 2⟩)]]), (str% "span", .vec [.num ⟨0, 0⟩, .num ⟨284, 0⟩, .num ⟨393, 0⟩])],
  .map [(str% "acc", .str (str% "Assets:Shares:IBM")), (str% "date", .date ⟨2025, 3, 1⟩), (str% "dct", .kw (str% "open")), (str% "idx", .num ⟨5, 0⟩), (str% "span", .vec [.num ⟨0, 0⟩, .num ⟨62, 0⟩, .num ⟨97, 0⟩])],
  .map [(str% "date", .date ⟨2025, 3, 1⟩), (str% "dct", .kw (str% "txn")), (str% "flag", .str (str% "*")), (str% "idx", .num ⟨6, 0⟩), (str% "narration", .str (str% "cost per-unit")), (str% "postings", .vec [.map [(str% "acc", .str (str% "Assets:Shares:IBM")), (str% "cost", .map [(str% "cur", .str (str% "NZD")), (str% "date", .date ⟨2025, 3, 1⟩), (str% "per-unit", .num ⟨30000, 2⟩), (str% "total", .num ⟨150000, 2⟩)]), (str% "cur", .str (str% "IBM")), (str% "idx", .num ⟨0, 0⟩), (str% "span", .vec [.num ⟨0, 0⟩, .num ⟨424, 0⟩, .num ⟨470, 0⟩]), (str% "units", .num ⟨5, 0⟩)], .map [(str% "acc", .str (str% "Assets:NZ:Cash")), (str% "cur", .str (str% "NZD")), (str% "idx", .num ⟨1, 0⟩), (str% "span", .vec [.num ⟨0, 0⟩, .num ⟨473, 0⟩, .num ⟨487, 0⟩]), (str% "units", .num ⟨-150000, 2⟩)]]), (str% "span", .vec [.num ⟨0, 0⟩, .num ⟨393, 0⟩, .num ⟨489, 0⟩])],
  .map [(str% "date", .date ⟨2025, 4, 1⟩), (str% "dct", .kw (str% "txn")), (str% "flag", .str (str% "*")), (str% "idx", .num ⟨7, 0⟩), (str% "narration", .str (str% "cost total")), (str% "postings", .vec [.map [(str% "acc", .str (str% "Assets:Shares:IBM")), (str% "cost", .map [(str% "cur", .str (str% "NZD")), (str% "date", .date ⟨2025, 4, 1⟩), (str% "per-unit", .num ⟨30333333333333333333333333333, 26⟩), (str% "total", .num ⟨91000, 2⟩)]), (str% "cur", .str (str% "IBM")), (str% "idx", .num ⟨0, 0⟩), (str% "span", .vec [.num ⟨0, 0⟩, .num ⟨517, 0⟩, .num ⟨565, 0⟩]), (str% "units", .num ⟨3, 0⟩)], .map [(str% "acc", .str (str% "Assets:NZ:Cash")), (str% "cur", .str (str% "NZD")), (str% "idx", .num ⟨1, 0⟩), (str% "span", .vec [.num ⟨0, 0⟩, .num ⟨568, 0⟩, .num ⟨582, 0⟩]), (str% "units", .num ⟨-91000, 2⟩)]]), (str% "span", .vec [.num ⟨0, 0⟩, .num ⟨489, 0⟩, .num ⟨584, 0⟩])],
  .map [(str% "date", .date ⟨2025, 4, 5⟩), (str% "dct", .kw (str% "txn")), (str% "flag", .str (str% "*")), (str% "idx", .num ⟨8, 0⟩), (str% "narration", .str (str% "cost total weight")), (str% "postings", .vec [.map [(str% "acc", .str (str% "Assets:Shares:IBM")), (str% "cost", .map [(str% "cur", .str (str% "NZD")), (str% "date", .date ⟨2025, 4, 5⟩), (str% "per-unit", .num ⟨30333333333333333333333333333, 26⟩), (str% "total", .num ⟨91000, 2⟩)]), (str% "cur", .str (str% "IBM")), (str% "idx", .num ⟨0, 0⟩), (str% "span", .vec [.num ⟨0, 0⟩, .num ⟨619, 0⟩, .num ⟨658, 0⟩]), (str% "units", .num ⟨3, 0⟩)], .map [(str% "acc", .str (str% "Assets:NZ:Cash")), (str% "cur", .str (str% "NZD")), (str% "idx", .num ⟨1, 0⟩), (str% "span", .vec [.num ⟨0, 0⟩, .num ⟨661, 0⟩, .num ⟨692, 0⟩]), (str% "units", .num ⟨-91000, 2⟩)]]), (str% "span", .vec [.num ⟨0, 0⟩, .num ⟨584, 0⟩, .num ⟨693, 0⟩])]]

example : directivesAre result directivesEdn = true := by decide +kernel

/-- test-cases/costs-and-prices.golden/directives.fyi.beancount -/
example : textIs directivesEdn
    (str% "2025-01-01 open Assets:UK:Cash\n\n2025-01-01 open Assets:NZ:Cash\n\n2025-01-01 * \"price per-unit\"\n  Assets:UK:Cash -1000.00 GBP @ 1.914 NZD\n  Assets:NZ:Cash 1914.00 NZD\n\n2025-02-01 * \"price total\"\n  Assets:UK:Cash -197.00 GBP @ 1.9369035532994923857868020305 NZD\n  Assets:NZ:Cash -381.57 NZD\n\n2025-02-05 * \"price total weight\"\n  Assets:UK:Cash -197.00 GBP @ 1.9369035532994923857868020305 NZD\n  Assets:NZ:Cash -381.57 NZD\n\n2025-03-01 open Assets:Shares:IBM\n\n2025-03-01 * \"cost per-unit\"\n  Assets:Shares:IBM 5 IBM {300.00 NZD, 2025-03-01}\n  Assets:NZ:Cash -1500.00 NZD\n\n2025-04-01 * \"cost total\"\n  Assets:Shares:IBM 3 IBM {303.33333333333333333333333333 NZD, 2025-04-01}\n  Assets:NZ:Cash -910.00 NZD\n\n2025-04-05 * \"cost total weight\"\n  Assets:Shares:IBM 3 IBM {303.33333333333333333333333333 NZD, 2025-04-05}\n  Assets:NZ:Cash -910.00 NZD\n") = true := by decide +kernel

end CostsAndPrices
end Recorded
end Limabean
