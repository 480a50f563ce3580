/-
The test case test-cases/trading.beancount. Transactions are booked as recorded.
-/
import Verif.Recorded.Lawful

namespace Limabean
namespace Recorded
namespace Trading
open Clj

set_option maxRecDepth 100000

/-- test-cases/trading.beancount, parsed. -/
def ledger : List Data := [
  .map [(str% "date", .date ⟨1970, 1, 1⟩), (str% "dct", .kw (str% "commodity")), (str% "cur", .str (str% "USD")), (str% "span", .vec [.num ⟨0, 0⟩, .num ⟨82, 0⟩, .num ⟨108, 0⟩])],
  .map [(str% "date", .date ⟨1970, 1, 1⟩), (str% "dct", .kw (str% "commodity")), (str% "cur", .str (str% "AAPL")), (str% "span", .vec [.num ⟨0, 0⟩, .num ⟨108, 0⟩, .num ⟨135, 0⟩])],
  .map [(str% "date", .date ⟨2010, 3, 1⟩), (str% "dct", .kw (str% "open")), (str% "acc", .str (str% "Assets:US:ETrade:Cash")), (str% "span", .vec [.num ⟨0, 0⟩, .num ⟨135, 0⟩, .num ⟨173, 0⟩])],
  .map [(str% "date", .date ⟨2010, 3, 1⟩), (str% "dct", .kw (str% "open")), (str% "acc", .str (str% "Assets:US:ETrade:IBM")), (str% "span", .vec [.num ⟨0, 0⟩, .num ⟨173, 0⟩, .num ⟨210, 0⟩])],
  .map [(str% "date", .date ⟨2010, 3, 1⟩), (str% "dct", .kw (str% "open")), (str% "acc", .str (str% "Expenses:Financial:Commissions")), (str% "span", .vec [.num ⟨0, 0⟩, .num ⟨210, 0⟩, .num ⟨257, 0⟩])],
  .map [(str% "date", .date ⟨2010, 3, 1⟩), (str% "dct", .kw (str% "open")), (str% "acc", .str (str% "Income:US:ETrade:PnL")), (str% "span", .vec [.num ⟨0, 0⟩, .num ⟨257, 0⟩, .num ⟨295, 0⟩])],
  .map [(str% "date", .date ⟨2014, 2, 16⟩), (str% "dct", .kw (str% "txn")), (str% "flag", .str (str% "*")), (str% "narration", .str (str% "Buying some IBM")), (str% "postings", .vec [.map [(str% "acc", .str (str% "Assets:US:ETrade:IBM")), (str% "units", .num ⟨10, 0⟩), (str% "cur", .str (str% "IBM")), (str% "cost-spec", .map [(str% "cur", .str (str% "USD")), (str% "per-unit", .num ⟨16000, 2⟩)]), (str% "span", .vec [.num ⟨0, 0⟩, .num ⟨328, 0⟩, .num ⟨422, 0⟩])], .map [(str% "acc", .str (str% "Assets:US:ETrade:Cash")), (str% "units", .num ⟨-160995, 2⟩), (str% "cur", .str (str% "USD")), (str% "span", .vec [.num ⟨0, 0⟩, .num ⟨425, 0⟩, .num ⟨506, 0⟩])], .map [(str% "acc", .str (str% "Expenses:Financial:Commissions")), (str% "units", .num ⟨995, 2⟩), (str% "cur", .str (str% "USD")), (str% "span", .vec [.num ⟨0, 0⟩, .num ⟨509, 0⟩, .num ⟨590, 0⟩])]]), (str% "span", .vec [.num ⟨0, 0⟩, .num ⟨295, 0⟩, .num ⟨592, 0⟩])],
  .map [(str% "date", .date ⟨2014, 2, 17⟩), (str% "dct", .kw (str% "txn")), (str% "flag", .str (str% "*")), (str% "narration", .str (str% "Selling some IBM")), (str% "postings", .vec [.map [(str% "acc", .str (str% "Assets:US:ETrade:IBM")), (str% "units", .num ⟨-3, 0⟩), (str% "cur", .str (str% "IBM")), (str% "cost-spec", .map [(str% "cur", .str (str% "USD")), (str% "per-unit", .num ⟨16000, 2⟩)]), (str% "price-spec", .map [(str% "cur", .str (str% "USD")), (str% "per-unit", .num ⟨17000, 2⟩)]), (str% "span", .vec [.num ⟨0, 0⟩, .num ⟨626, 0⟩, .num ⟨733, 0⟩])], .map [(str% "acc", .str (str% "Assets:US:ETrade:Cash")), (str% "units", .num ⟨50005, 2⟩), (str% "cur", .str (str% "USD")), (str% "span", .vec [.num ⟨0, 0⟩, .num ⟨736, 0⟩, .num ⟨817, 0⟩])], .map [(str% "acc", .str (str% "Expenses:Financial:Commissions")), (str% "units", .num ⟨995, 2⟩), (str% "cur", .str (str% "USD")), (str% "span", .vec [.num ⟨0, 0⟩, .num ⟨820, 0⟩, .num ⟨901, 0⟩])], .map [(str% "acc", .str (str% "Income:US:ETrade:PnL")), (str% "span", .vec [.num ⟨0, 0⟩, .num ⟨904, 0⟩, .num ⟨924, 0⟩])]]), (str% "span", .vec [.num ⟨0, 0⟩, .num ⟨592, 0⟩, .num ⟨926, 0⟩])],
  .map [(str% "date", .date ⟨2014, 2, 18⟩), (str% "dct", .kw (str% "txn")), (str% "flag", .str (str% "*")), (str% "narration", .str (str% "I put my chips on big blue!")), (str% "postings", .vec [.map [(str% "acc", .str (str% "Assets:US:ETrade:IBM")), (str% "units", .num ⟨5, 0⟩), (str% "cur", .str (str% "IBM")), (str% "cost-spec", .map [(str% "cur", .str (str% "USD")), (str% "per-unit", .num ⟨18000, 2⟩)]), (str% "span", .vec [.num ⟨0, 0⟩, .num ⟨971, 0⟩, .num ⟨1065, 0⟩])], .map [(str% "acc", .str (str% "Assets:US:ETrade:Cash")), (str% "units", .num ⟨-90995, 2⟩), (str% "cur", .str (str% "USD")), (str% "span", .vec [.num ⟨0, 0⟩, .num ⟨1068, 0⟩, .num ⟨1149, 0⟩])], .map [(str% "acc", .str (str% "Expenses:Financial:Commissions")), (str% "units", .num ⟨995, 2⟩), (str% "cur", .str (str% "USD")), (str% "span", .vec [.num ⟨0, 0⟩, .num ⟨1152, 0⟩, .num ⟨1233, 0⟩])]]), (str% "span", .vec [.num ⟨0, 0⟩, .num ⟨926, 0⟩, .num ⟨1235, 0⟩])],
  .map [(str% "date", .date ⟨2014, 3, 18⟩), (str% "dct", .kw (str% "txn")), (str% "flag", .str (str% "*")), (str% "narration", .str (str% "Selling all my blue chips.")), (str% "postings", .vec [.map [(str% "acc", .str (str% "Assets:US:ETrade:IBM")), (str% "units", .num ⟨-12, 0⟩), (str% "cur", .str (str% "IBM")), (str% "cost-spec", .map []), (str% "price-spec", .map [(str% "cur", .str (str% "USD")), (str% "per-unit", .num ⟨17200, 2⟩)]), (str% "span", .vec [.num ⟨0, 0⟩, .num ⟨1279, 0⟩, .num ⟨1376, 0⟩])], .map [(str% "acc", .str (str% "Assets:US:ETrade:Cash")), (str% "units", .num ⟨205405, 2⟩), (str% "cur", .str (str% "USD")), (str% "span", .vec [.num ⟨0, 0⟩, .num ⟨1379, 0⟩, .num ⟨1460, 0⟩])], .map [(str% "acc", .str (str% "Expenses:Financial:Commissions")), (str% "units", .num ⟨995, 2⟩), (str% "cur", .str (str% "USD")), (str% "span", .vec [.num ⟨0, 0⟩, .num ⟨1463, 0⟩, .num ⟨1544, 0⟩])], .map [(str% "acc", .str (str% "Income:US:ETrade:PnL")), (str% "span", .vec [.num ⟨0, 0⟩, .num ⟨1547, 0⟩, .num ⟨1567, 0⟩])]]), (str% "span", .vec [.num ⟨0, 0⟩, .num ⟨1235, 0⟩, .num ⟨1569, 0⟩])],
  .map [(str% "date", .date ⟨2014, 4, 16⟩), (str% "dct", .kw (str% "txn")), (str% "flag", .str (str% "*")), (str% "narration", .str (str% "Buying some more IBM")), (str% "postings", .vec [.map [(str% "acc", .str (str% "Assets:US:ETrade:IBM")), (str% "units", .num ⟨10, 0⟩), (str% "cur", .str (str% "IBM")), (str% "cost-spec", .map [(str% "cur", .str (str% "USD")), (str% "per-unit", .num ⟨17300, 2⟩)]), (str% "span", .vec [.num ⟨0, 0⟩, .num ⟨1607, 0⟩, .num ⟨1701, 0⟩])], .map [(str% "acc", .str (str% "Assets:US:ETrade:Cash")), (str% "units", .num ⟨-173995, 2⟩), (str% "cur", .str (str% "USD")), (str% "span", .vec [.num ⟨0, 0⟩, .num ⟨1704, 0⟩, .num ⟨1785, 0⟩])], .map [(str% "acc", .str (str% "Expenses:Financial:Commissions")), (str% "units", .num ⟨995, 2⟩), (str% "cur", .str (str% "USD")), (str% "span", .vec [.num ⟨0, 0⟩, .num ⟨1788, 0⟩, .num ⟨1869, 0⟩])]]), (str% "span", .vec [.num ⟨0, 0⟩, .num ⟨1569, 0⟩, .num ⟨1871, 0⟩])],
  .map [(str% "date", .date ⟨2014, 4, 26⟩), (str% "dct", .kw (str% "txn")), (str% "flag", .str (str% "*")), (str% "narration", .str (str% "Buying IBM yet again")), (str% "postings", .vec [.map [(str% "acc", .str (str% "Assets:US:ETrade:IBM")), (str% "units", .num ⟨10, 0⟩), (str% "cur", .str (str% "IBM")), (str% "cost-spec", .map [(str% "cur", .str (str% "USD")), (str% "per-unit", .num ⟨18000, 2⟩)]), (str% "span", .vec [.num ⟨0, 0⟩, .num ⟨1909, 0⟩, .num ⟨2003, 0⟩])], .map [(str% "acc", .str (str% "Assets:US:ETrade:Cash")), (str% "units", .num ⟨-180995, 2⟩), (str% "cur", .str (str% "USD")), (str% "span", .vec [.num ⟨0, 0⟩, .num ⟨2006, 0⟩, .num ⟨2087, 0⟩])], .map [(str% "acc", .str (str% "Expenses:Financial:Commissions")), (str% "units", .num ⟨995, 2⟩), (str% "cur", .str (str% "USD")), (str% "span", .vec [.num ⟨0, 0⟩, .num ⟨2090, 0⟩, .num ⟨2171, 0⟩])]]), (str% "span", .vec [.num ⟨0, 0⟩, .num ⟨1871, 0⟩, .num ⟨2173, 0⟩])],
  .map [(str% "date", .date ⟨2014, 5, 1⟩), (str% "dct", .kw (str% "txn")), (str% "flag", .str (str% "*")), (str% "narration", .str (str% "Selling some older blue chips.")), (str% "postings", .vec [.map [(str% "acc", .str (str% "Assets:US:ETrade:IBM")), (str% "units", .num ⟨-4, 0⟩), (str% "cur", .str (str% "IBM")), (str% "cost-spec", .map [(str% "cur", .str (str% "USD")), (str% "per-unit", .num ⟨17300, 2⟩)]), (str% "price-spec", .map [(str% "cur", .str (str% "USD")), (str% "per-unit", .num ⟨18500, 2⟩)]), (str% "span", .vec [.num ⟨0, 0⟩, .num ⟨2221, 0⟩, .num ⟨2328, 0⟩])], .map [(str% "acc", .str (str% "Assets:US:ETrade:Cash")), (str% "units", .num ⟨74000, 2⟩), (str% "cur", .str (str% "USD")), (str% "span", .vec [.num ⟨0, 0⟩, .num ⟨2331, 0⟩, .num ⟨2412, 0⟩])], .map [(str% "acc", .str (str% "Expenses:Financial:Commissions")), (str% "units", .num ⟨995, 2⟩), (str% "cur", .str (str% "USD")), (str% "span", .vec [.num ⟨0, 0⟩, .num ⟨2415, 0⟩, .num ⟨2496, 0⟩])], .map [(str% "acc", .str (str% "Income:US:ETrade:PnL")), (str% "span", .vec [.num ⟨0, 0⟩, .num ⟨2499, 0⟩, .num ⟨2519, 0⟩])]]), (str% "span", .vec [.num ⟨0, 0⟩, .num ⟨2173, 0⟩, .num ⟨3014, 0⟩])]]

/-- How the library booked its transactions. -/
def answers : List (List (Option Span) × List Interpolated) := [
  ([some ⟨0, 328, 422⟩, some ⟨0, 425, 506⟩, some ⟨0, 509, 590⟩], [{ units := ⟨10, 0⟩, currency := str% "IBM", cost := some [{ cur := str% "USD", units := ⟨10, 0⟩, date := ⟨2014, 2, 16⟩, perUnit := ⟨16000, 2⟩, total := ⟨160000, 2⟩ }] }, { units := ⟨-160995, 2⟩, currency := str% "USD" }, { units := ⟨995, 2⟩, currency := str% "USD" }]),
  ([some ⟨0, 626, 733⟩, some ⟨0, 736, 817⟩, some ⟨0, 820, 901⟩, some ⟨0, 904, 924⟩], [{ units := ⟨-3, 0⟩, currency := str% "IBM", cost := some [{ cur := str% "USD", units := ⟨-3, 0⟩, date := ⟨2014, 2, 16⟩, perUnit := ⟨16000, 2⟩, total := ⟨160000, 2⟩ }] }, { units := ⟨50005, 2⟩, currency := str% "USD" }, { units := ⟨995, 2⟩, currency := str% "USD" }, { units := ⟨-3000, 2⟩, currency := str% "USD" }]),
  ([some ⟨0, 971, 1065⟩, some ⟨0, 1068, 1149⟩, some ⟨0, 1152, 1233⟩], [{ units := ⟨5, 0⟩, currency := str% "IBM", cost := some [{ cur := str% "USD", units := ⟨5, 0⟩, date := ⟨2014, 2, 18⟩, perUnit := ⟨18000, 2⟩, total := ⟨90000, 2⟩ }] }, { units := ⟨-90995, 2⟩, currency := str% "USD" }, { units := ⟨995, 2⟩, currency := str% "USD" }]),
  ([some ⟨0, 1279, 1376⟩, some ⟨0, 1379, 1460⟩, some ⟨0, 1463, 1544⟩, some ⟨0, 1547, 1567⟩], [{ units := ⟨-12, 0⟩, currency := str% "IBM", cost := some [{ cur := str% "USD", units := ⟨-7, 0⟩, date := ⟨2014, 2, 16⟩, perUnit := ⟨16000, 2⟩, total := ⟨160000, 2⟩ }, { cur := str% "USD", units := ⟨-5, 0⟩, date := ⟨2014, 2, 18⟩, perUnit := ⟨18000, 2⟩, total := ⟨90000, 2⟩ }] }, { units := ⟨205405, 2⟩, currency := str% "USD" }, { units := ⟨995, 2⟩, currency := str% "USD" }, { units := ⟨-4400, 2⟩, currency := str% "USD" }]),
  ([some ⟨0, 1607, 1701⟩, some ⟨0, 1704, 1785⟩, some ⟨0, 1788, 1869⟩], [{ units := ⟨10, 0⟩, currency := str% "IBM", cost := some [{ cur := str% "USD", units := ⟨10, 0⟩, date := ⟨2014, 4, 16⟩, perUnit := ⟨17300, 2⟩, total := ⟨173000, 2⟩ }] }, { units := ⟨-173995, 2⟩, currency := str% "USD" }, { units := ⟨995, 2⟩, currency := str% "USD" }]),
  ([some ⟨0, 1909, 2003⟩, some ⟨0, 2006, 2087⟩, some ⟨0, 2090, 2171⟩], [{ units := ⟨10, 0⟩, currency := str% "IBM", cost := some [{ cur := str% "USD", units := ⟨10, 0⟩, date := ⟨2014, 4, 26⟩, perUnit := ⟨18000, 2⟩, total := ⟨180000, 2⟩ }] }, { units := ⟨-180995, 2⟩, currency := str% "USD" }, { units := ⟨995, 2⟩, currency := str% "USD" }]),
  ([some ⟨0, 2221, 2328⟩, some ⟨0, 2331, 2412⟩, some ⟨0, 2415, 2496⟩, some ⟨0, 2499, 2519⟩], [{ units := ⟨-4, 0⟩, currency := str% "IBM", cost := some [{ cur := str% "USD", units := ⟨-4, 0⟩, date := ⟨2014, 4, 16⟩, perUnit := ⟨17300, 2⟩, total := ⟨173000, 2⟩ }] }, { units := ⟨74000, 2⟩, currency := str% "USD" }, { units := ⟨995, 2⟩, currency := str% "USD" }, { units := ⟨-5795, 2⟩, currency := str% "USD" }])]

/-- The library. -/
def library : BookLib := replay answers

example : library.Lawful := replay_lawful (by decide +kernel)

/-- The model, run on it. -/
def result := loaded library {} [] ledger

/-- test-cases/trading.golden/directives.edn -/
def directivesEdn : List Data := [
  .map [(str% "cur", .str (str% "USD")), (str% "date", .date ⟨1970, 1, 1⟩), (str% "dct", .kw (str% "commodity")), (str% "idx", .num ⟨0, 0⟩), (str% "span", .vec [.num ⟨0, 0⟩, .num ⟨82, 0⟩, .num ⟨108, 0⟩])],
  .map [(str% "cur", .str (str% "AAPL")), (str% "date", .date ⟨1970, 1, 1⟩), (str% "dct", .kw (str% "commodity")), (str% "idx", .num ⟨1, 0⟩), (str% "span", .vec [.num ⟨0, 0⟩, .num ⟨108, 0⟩, .num ⟨135, 0⟩])],
  .map [(str% "acc", .str (str% "Assets:US:ETrade:Cash")), (str% "date", .date ⟨2010, 3, 1⟩), (str% "dct", .kw (str% "open")), (str% "idx", .num ⟨2, 0⟩), (str% "span", .vec [.num ⟨0, 0⟩, .num ⟨135, 0⟩, .num ⟨173, 0⟩])],
  .map [(str% "acc", .str (str% "Assets:US:ETrade:IBM")), (str% "date", .date ⟨2010, 3, 1⟩), (str% "dct", .kw (str% "open")), (str% "idx", .num ⟨3, 0⟩), (str% "span", .vec [.num ⟨0, 0⟩, .num ⟨173, 0⟩, .num ⟨210, 0⟩])],
  .map [(str% "acc", .str (str% "Expenses:Financial:Commissions")), (str% "date", .date ⟨2010, 3, 1⟩), (str% "dct", .kw (str% "open")), (str% "idx", .num ⟨4, 0⟩), (str% "span", .vec [.num ⟨0, 0⟩, .num ⟨210, 0⟩, .num ⟨257, 0⟩])],
  .map [(str% "acc", .str (str% "Income:US:ETrade:PnL")), (str% "date", .date ⟨2010, 3, 1⟩), (str% "dct", .kw (str% "open")), (str% "idx", .num ⟨5, 0⟩), (str% "span", .vec [.num ⟨0, 0⟩, .num ⟨257, 0⟩, .num ⟨295, 0⟩])],
  .map [(str% "date", .date ⟨2014, 2, 16⟩), (str% "dct", .kw (str% "txn")), (str% "flag", .str (str% "*")), (str% "idx", .num ⟨6, 0⟩), (str% "narration", .str (str% "Buying some IBM")), (str% "postings", .vec [.map [(str% "acc", .str (str% "Assets:US:ETrade:IBM")), (str% "cost", .map [(str% "cur", .str (str% "USD")), (str% "date", .date ⟨2014, 2, 16⟩), (str% "per-unit", .num ⟨16000, 2⟩), (str% "total", .num ⟨160000, 2⟩)]), (str% "cur", .str (str% "IBM")), (str% "idx", .num ⟨0, 0⟩), (str% "span", .vec [.num ⟨0, 0⟩, .num ⟨328, 0⟩, .num ⟨422, 0⟩]), (str% "units", .num ⟨10, 0⟩)], .map [(str% "acc", .str (str% "Assets:US:ETrade:Cash")), (str% "cur", .str (str% "USD")), (str% "idx", .num ⟨1, 0⟩), (str% "span", .vec [.num ⟨0, 0⟩, .num ⟨425, 0⟩, .num ⟨506, 0⟩]), (str% "units", .num ⟨-160995, 2⟩)], .map [(str% "acc", .str (str% "Expenses:Financial:Commissions")), (str% "cur", .str (str% "USD")), (str% "idx", .num ⟨2, 0⟩), (str% "span", .vec [.num ⟨0, 0⟩, .num ⟨509, 0⟩, .num ⟨590, 0⟩]), (str% "units", .num ⟨995, 2⟩)]]), (str% "span", .vec [.num ⟨0, 0⟩, .num ⟨295, 0⟩, .num ⟨592, 0⟩])],
  .map [(str% "date", .date ⟨2014, 2, 17⟩), (str% "dct", .kw (str% "txn")), (str% "flag", .str (str% "*")), (str% "idx", .num ⟨7, 0⟩), (str% "narration", .str (str% "Selling some IBM")), (str% "postings", .vec [.map [(str% "acc", .str (str% "Assets:US:ETrade:IBM")), (str% "cost", .map [(str% "cur", .str (str% "USD")), (str% "date", .date ⟨2014, 2, 16⟩), (str% "per-unit", .num ⟨16000, 2⟩), (str% "total", .num ⟨160000, 2⟩)]), (str% "cur", .str (str% "IBM")), (str% "idx", .num ⟨0, 0⟩), (str% "span", .vec [.num ⟨0, 0⟩, .num ⟨626, 0⟩, .num ⟨733, 0⟩]), (str% "units", .num ⟨-3, 0⟩)], .map [(str% "acc", .str (str% "Assets:US:ETrade:Cash")), (str% "cur", .str (str% "USD")), (str% "idx", .num ⟨1, 0⟩), (str% "span", .vec [.num ⟨0, 0⟩, .num ⟨736, 0⟩, .num ⟨817, 0⟩]), (str% "units", .num ⟨50005, 2⟩)], .map [(str% "acc", .str (str% "Expenses:Financial:Commissions")), (str% "cur", .str (str% "USD")), (str% "idx", .num ⟨2, 0⟩), (str% "span", .vec [.num ⟨0, 0⟩, .num ⟨820, 0⟩, .num ⟨901, 0⟩]), (str% "units", .num ⟨995, 2⟩)], .map [(str% "acc", .str (str% "Income:US:ETrade:PnL")), (str% "cur", .str (str% "USD")), (str% "idx", .num ⟨3, 0⟩), (str% "span", .vec [.num ⟨0, 0⟩, .num ⟨904, 0⟩, .num ⟨924, 0⟩]), (str% "units", .num ⟨-3000, 2⟩)]]), (str% "span", .vec [.num ⟨0, 0⟩, .num ⟨592, 0⟩, .num ⟨926, 0⟩])],
  .map [(str% "date", .date ⟨2014, 2, 18⟩), (str% "dct", .kw (str% "txn")), (str% "flag", .str (str% "*")), (str% "idx", .num ⟨8, 0⟩), (str% "narration", .str (str% "I put my chips on big blue!")), (str% "postings", .vec [.map [(str% "acc", .str (str% "Assets:US:ETrade:IBM")), (str% "cost", .map [(str% "cur", .str (str% "USD")), (str% "date", .date ⟨2014, 2, 18⟩), (str% "per-unit", .num ⟨18000, 2⟩), (str% "total", .num ⟨90000, 2⟩)]), (str% "cur", .str (str% "IBM")), (str% "idx", .num ⟨0, 0⟩), (str% "span", .vec [.num ⟨0, 0⟩, .num ⟨971, 0⟩, .num ⟨1065, 0⟩]), (str% "units", .num ⟨5, 0⟩)], .map [(str% "acc", .str (str% "Assets:US:ETrade:Cash")), (str% "cur", .str (str% "USD")), (str% "idx", .num ⟨1, 0⟩), (str% "span", .vec [.num ⟨0, 0⟩, .num ⟨1068, 0⟩, .num ⟨1149, 0⟩]), (str% "units", .num ⟨-90995, 2⟩)], .map [(str% "acc", .str (str% "Expenses:Financial:Commissions")), (str% "cur", .str (str% "USD")), (str% "idx", .num ⟨2, 0⟩), (str% "span", .vec [.num ⟨0, 0⟩, .num ⟨1152, 0⟩, .num ⟨1233, 0⟩]), (str% "units", .num ⟨995, 2⟩)]]), (str% "span", .vec [.num ⟨0, 0⟩, .num ⟨926, 0⟩, .num ⟨1235, 0⟩])],
  .map [(str% "date", .date ⟨2014, 3, 18⟩), (str% "dct", .kw (str% "txn")), (str% "flag", .str (str% "*")), (str% "idx", .num ⟨9, 0⟩), (str% "narration", .str (str% "Selling all my blue chips.")), (str% "postings", .vec [.map [(str% "acc", .str (str% "Assets:US:ETrade:IBM")), (str% "cost", .map [(str% "cur", .str (str% "USD")), (str% "date", .date ⟨2014, 2, 16⟩), (str% "per-unit", .num ⟨16000, 2⟩), (str% "total", .num ⟨160000, 2⟩)]), (str% "cur", .str (str% "IBM")), (str% "idx", .num ⟨0, 0⟩), (str% "span", .vec [.num ⟨0, 0⟩, .num ⟨1279, 0⟩, .num ⟨1376, 0⟩]), (str% "units", .num ⟨-7, 0⟩)], .map [(str% "acc", .str (str% "Assets:US:ETrade:IBM")), (str% "cost", .map [(str% "cur", .str (str% "USD")), (str% "date", .date ⟨2014, 2, 18⟩), (str% "per-unit", .num ⟨18000, 2⟩), (str% "total", .num ⟨90000, 2⟩)]), (str% "cur", .str (str% "IBM")), (str% "idx", .num ⟨0, 0⟩), (str% "span", .vec [.num ⟨0, 0⟩, .num ⟨1279, 0⟩, .num ⟨1376, 0⟩]), (str% "units", .num ⟨-5, 0⟩)], .map [(str% "acc", .str (str% "Assets:US:ETrade:Cash")), (str% "cur", .str (str% "USD")), (str% "idx", .num ⟨1, 0⟩), (str% "span", .vec [.num ⟨0, 0⟩, .num ⟨1379, 0⟩, .num ⟨1460, 0⟩]), (str% "units", .num ⟨205405, 2⟩)], .map [(str% "acc", .str (str% "Expenses:Financial:Commissions")), (str% "cur", .str (str% "USD")), (str% "idx", .num ⟨2, 0⟩), (str% "span", .vec [.num ⟨0, 0⟩, .num ⟨1463, 0⟩, .num ⟨1544, 0⟩]), (str% "units", .num ⟨995, 2⟩)], .map [(str% "acc", .str (str% "Income:US:ETrade:PnL")), (str% "cur", .str (str% "USD")), (str% "idx", .num ⟨3, 0⟩), (str% "span", .vec [.num ⟨0, 0⟩, .num ⟨1547, 0⟩, .num ⟨1567, 0⟩]), (str% "units", .num ⟨-4400, 2⟩)]]), (str% "span", .vec [.num ⟨0, 0⟩, .num ⟨1235, 0⟩, .num ⟨1569, 0⟩])],
  .map [(str% "date", .date ⟨2014, 4, 16⟩), (str% "dct", .kw (str% "txn")), (str% "flag", .str (str% "*")), (str% "idx", .num ⟨10, 0⟩), (str% "narration", .str (str% "Buying some more IBM")), (str% "postings", .vec [.map [(str% "acc", .str (str% "Assets:US:ETrade:IBM")), (str% "cost", .map [(str% "cur", .str (str% "USD")), (str% "date", .date ⟨2014, 4, 16⟩), (str% "per-unit", .num ⟨17300, 2⟩), (str% "total", .num ⟨173000, 2⟩)]), (str% "cur", .str (str% "IBM")), (str% "idx", .num ⟨0, 0⟩), (str% "span", .vec [.num ⟨0, 0⟩, .num ⟨1607, 0⟩, .num ⟨1701, 0⟩]), (str% "units", .num ⟨10, 0⟩)], .map [(str% "acc", .str (str% "Assets:US:ETrade:Cash")), (str% "cur", .str (str% "USD")), (str% "idx", .num ⟨1, 0⟩), (str% "span", .vec [.num ⟨0, 0⟩, .num ⟨1704, 0⟩, .num ⟨1785, 0⟩]), (str% "units", .num ⟨-173995, 2⟩)], .map [(str% "acc", .str (str% "Expenses:Financial:Commissions")), (str% "cur", .str (str% "USD")), (str% "idx", .num ⟨2, 0⟩), (str% "span", .vec [.num ⟨0, 0⟩, .num ⟨1788, 0⟩, .num ⟨1869, 0⟩]), (str% "units", .num ⟨995, 2⟩)]]), (str% "span", .vec [.num ⟨0, 0⟩, .num ⟨1569, 0⟩, .num ⟨1871, 0⟩])],
  .map [(str% "date", .date ⟨2014, 4, 26⟩), (str% "dct", .kw (str% "txn")), (str% "flag", .str (str% "*")), (str% "idx", .num ⟨11, 0⟩), (str% "narration", .str (str% "Buying IBM yet again")), (str% "postings", .vec [.map [(str% "acc", .str (str% "Assets:US:ETrade:IBM")), (str% "cost", .map [(str% "cur", .str (str% "USD")), (str% "date", .date ⟨2014, 4, 26⟩), (str% "per-unit", .num ⟨18000, 2⟩), (str% "total", .num ⟨180000, 2⟩)]), (str% "cur", .str (str% "IBM")), (str% "idx", .num ⟨0, 0⟩), (str% "span", .vec [.num ⟨0, 0⟩, .num ⟨1909, 0⟩, .num ⟨2003, 0⟩]), (str% "units", .num ⟨10, 0⟩)], .map [(str% "acc", .str (str% "Assets:US:ETrade:Cash")), (str% "cur", .str (str% "USD")), (str% "idx", .num ⟨1, 0⟩), (str% "span", .vec [.num ⟨0, 0⟩, .num ⟨2006, 0⟩, .num ⟨2087, 0⟩]), (str% "units", .num ⟨-180995, 2⟩)], .map [(str% "acc", .str (str% "Expenses:Financial:Commissions")), (str% "cur", .str (str% "USD")), (str% "idx", .num ⟨2, 0⟩), (str% "span", .vec [.num ⟨0, 0⟩, .num ⟨2090, 0⟩, .num ⟨2171, 0⟩]), (str% "units", .num ⟨995, 2⟩)]]), (str% "span", .vec [.num ⟨0, 0⟩, .num ⟨1871, 0⟩, .num ⟨2173, 0⟩])],
  .map [(str% "date", .date ⟨2014, 5, 1⟩), (str% "dct", .kw (str% "txn")), (str% "flag", .str (str% "*")), (str% "idx", .num ⟨12, 0⟩), (str% "narration", .str (str% "Selling some older blue chips.")), (str% "postings", .vec [.map [(str% "acc", .str (str% "Assets:US:ETrade:IBM")), (str% "cost", .map [(str% "cur", .str (str% "USD")), (str% "date", .date ⟨2014, 4, 16⟩), (str% "per-unit", .num ⟨17300, 2⟩), (str% "total", .num ⟨173000, 2⟩)]), (str% "cur", .str (str% "IBM")), (str% "idx", .num ⟨0, 0⟩), (str% "span", .vec [.num ⟨0, 0⟩, .num ⟨2221, 0⟩, .num ⟨2328, 0⟩]), (str% "units", .num ⟨-4, 0⟩)], .map [(str% "acc", .str (str% "Assets:US:ETrade:Cash")), (str% "cur", .str (str% "USD")), (str% "idx", .num ⟨1, 0⟩), (str% "span", .vec [.num ⟨0, 0⟩, .num ⟨2331, 0⟩, .num ⟨2412, 0⟩]), (str% "units", .num ⟨74000, 2⟩)], .map [(str% "acc", .str (str% "Expenses:Financial:Commissions")), (str% "cur", .str (str% "USD")), (str% "idx", .num ⟨2, 0⟩), (str% "span", .vec [.num ⟨0, 0⟩, .num ⟨2415, 0⟩, .num ⟨2496, 0⟩]), (str% "units", .num ⟨995, 2⟩)], .map [(str% "acc", .str (str% "Income:US:ETrade:PnL")), (str% "cur", .str (str% "USD")), (str% "idx", .num ⟨3, 0⟩), (str% "span", .vec [.num ⟨0, 0⟩, .num ⟨2499, 0⟩, .num ⟨2519, 0⟩]), (str% "units", .num ⟨-5795, 2⟩)]]), (str% "span", .vec [.num ⟨0, 0⟩, .num ⟨2173, 0⟩, .num ⟨3014, 0⟩])]]

example : directivesAre result directivesEdn = true := by decide +kernel

/-- test-cases/trading.golden/directives.fyi.beancount -/
example : textIs directivesEdn
    (str% "1970-01-01 commodity USD\n\n1970-01-01 commodity AAPL\n\n2010-03-01 open Assets:US:ETrade:Cash\n\n2010-03-01 open Assets:US:ETrade:IBM\n\n2010-03-01 open Expenses:Financial:Commissions\n\n2010-03-01 open Income:US:ETrade:PnL\n\n2014-02-16 * \"Buying some IBM\"\n  Assets:US:ETrade:IBM 10 IBM {160.00 USD, 2014-02-16}\n  Assets:US:ETrade:Cash -1609.95 USD\n  Expenses:Financial:Commissions 9.95 USD\n\n2014-02-17 * \"Selling some IBM\"\n  Assets:US:ETrade:IBM -3 IBM {160.00 USD, 2014-02-16}\n  Assets:US:ETrade:Cash 500.05 USD\n  Expenses:Financial:Commissions 9.95 USD\n  Income:US:ETrade:PnL -30.00 USD\n\n2014-02-18 * \"I put my chips on big blue!\"\n  Assets:US:ETrade:IBM 5 IBM {180.00 USD, 2014-02-18}\n  Assets:US:ETrade:Cash -909.95 USD\n  Expenses:Financial:Commissions 9.95 USD\n\n2014-03-18 * \"Selling all my blue chips.\"\n  Assets:US:ETrade:IBM -7 IBM {160.00 USD, 2014-02-16}\n  Assets:US:ETrade:IBM -5 IBM {180.00 USD, 2014-02-18}\n  Assets:US:ETrade:Cash 2054.05 USD\n  Expenses:Financial:Commissions 9.95 USD\n  Income:US:ETrade:PnL -44.00 USD\n\n2014-04-16 * \"Buying some more IBM\"\n  Assets:US:ETrade:IBM 10 IBM {173.00 USD, 2014-04-16}\n  Assets:US:ETrade:Cash -1739.95 USD\n  Expenses:Financial:Commissions 9.95 USD\n\n2014-04-26 * \"Buying IBM yet again\"\n  Assets:US:ETrade:IBM 10 IBM {180.00 USD, 2014-04-26}\n  Assets:US:ETrade:Cash -1809.95 USD\n  Expenses:Financial:Commissions 9.95 USD\n\n2014-05-01 * \"Selling some older blue chips.\"\n  Assets:US:ETrade:IBM -4 IBM {173.00 USD, 2014-04-16}\n  Assets:US:ETrade:Cash 740.00 USD\n  Expenses:Financial:Commissions 9.95 USD\n  Income:US:ETrade:PnL -57.95 USD\n") = true := by decide +kernel

/-- test-cases/trading.golden/inventory -/
example : inventoryIs result
    (str% "Assets:US:ETrade:Cash -2775.70 USD \nAssets:US:ETrade:IBM 6 IBM 2014-04-16 USD 173.00 \n 10 IBM 2014-04-26 USD 180.00 \nExpenses:Financial:Commissions 69.65 USD \nIncome:US:ETrade:PnL -131.95 USD \n") = true := by decide +kernel

/-- test-cases/trading.golden/rollup -/
example : rollupIs result
    (str% "Assets -2775.70 \nAssets:US -2775.70 \nAssets:US:ETrade -2775.70 \nAssets:US:ETrade:Cash -2775.70\nExpenses 69.65 \nExpenses:Financial 69.65 \nExpenses:Financial:Commissions 69.65\nIncome -131.95 \nIncome:US -131.95 \nIncome:US:ETrade -131.95 \nIncome:US:ETrade:PnL -131.95\n") = true := by decide +kernel

/-- test-cases/trading.golden/journal -/
example : journalIs result
    (str% "2014-02-16 Assets:US:ETrade:IBM Buying some IBM 10 IBM 10 IBM\n2014-02-16 Assets:US:ETrade:Cash Buying some IBM -1609.95 USD 10 IBM\n -1609.95 USD\n2014-02-16 Expenses:Financial:Commissions Buying some IBM 9.95 USD 10 IBM\n -1600.00 USD\n2014-02-17 Assets:US:ETrade:IBM Selling some IBM -3 IBM 7 IBM\n -1600.00 USD\n2014-02-17 Assets:US:ETrade:Cash Selling some IBM 500.05 USD 7 IBM\n -1099.95 USD\n2014-02-17 Expenses:Financial:Commissions Selling some IBM 9.95 USD 7 IBM\n -1090.00 USD\n2014-02-17 Income:US:ETrade:PnL Selling some IBM -30.00 USD 7 IBM\n -1120.00 USD\n2014-02-18 Assets:US:ETrade:IBM I put my chips on big blue! 5 IBM 12 IBM\n -1120.00 USD\n2014-02-18 Assets:US:ETrade:Cash I put my chips on big blue! -909.95 USD 12 IBM\n -2029.95 USD\n2014-02-18 Expenses:Financial:Commissions I put my chips on big blue! 9.95 USD 12 IBM\n -2020.00 USD\n2014-03-18 Assets:US:ETrade:IBM Selling all my blue chips. -7 IBM 5 IBM\n -2020.00 USD\n2014-03-18 Assets:US:ETrade:IBM Selling all my blue chips. -5 IBM -2020.00 USD\n2014-03-18 Assets:US:ETrade:Cash Selling all my blue chips. 2054.05 USD 34.05 USD\n2014-03-18 Expenses:Financial:Commissions Selling all my blue chips. 9.95 USD 44.00 USD\n2014-03-18 Income:US:ETrade:PnL Selling all my blue chips. -44.00 USD \n2014-04-16 Assets:US:ETrade:IBM Buying some more IBM 10 IBM 10 IBM\n2014-04-16 Assets:US:ETrade:Cash Buying some more IBM -1739.95 USD 10 IBM\n -1739.95 USD\n2014-04-16 Expenses:Financial:Commissions Buying some more IBM 9.95 USD 10 IBM\n -1730.00 USD\n2014-04-26 Assets:US:ETrade:IBM Buying IBM yet again 10 IBM 20 IBM\n -1730.00 USD\n2014-04-26 Assets:US:ETrade:Cash Buying IBM yet again -1809.95 USD 20 IBM\n -3539.95 USD\n2014-04-26 Expenses:Financial:Commissions Buying IBM yet again 9.95 USD 20 IBM\n -3530.00 USD\n2014-05-01 Assets:US:ETrade:IBM Selling some older blue chips. -4 IBM 16 IBM\n -3530.00 USD\n2014-05-01 Assets:US:ETrade:Cash Selling some older blue chips. 740.00 USD 16 IBM\n -2790.00 USD\n2014-05-01 Expenses:Financial:Commissions Selling some older blue chips. 9.95 USD 16 IBM\n -2780.05 USD\n2014-05-01 Income:US:ETrade:PnL Selling some older blue chips. -57.95 USD 16 IBM\n -2838.00 USD\n") = true := by decide +kernel

end Trading
end Recorded
end Limabean
