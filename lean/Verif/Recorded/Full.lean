/-
The test case test-cases/full.beancount. Transactions are booked as recorded. The directives are those recorded as raw, whose plugin passes on all.
-/
import Verif.Recorded.Lawful

namespace Limabean
namespace Recorded
namespace Full
open Clj

set_option maxRecDepth 100000

/-- test-cases/full.beancount, parsed. -/
def ledger : List Data := [
  .map [(str% "cur", .str (str% "NZD")), (str% "date", .date ⟨1970, 1, 1⟩), (str% "dct", .kw (str% "commodity")), (str% "links", .set [.str (str% "money.co.nz")]), (str% "span", .vec [.num ⟨0, 0⟩, .num ⟨278, 0⟩, .num ⟨413, 0⟩]), (str% "tags", .set [.str (str% "downunder")])],
  .map [(str% "acc", .str (str% "Assets:AccountsReceivable:Taxes")), (str% "currencies", .set [.str (str% "CAD"), .str (str% "USD")]), (str% "date", .date ⟨1972, 5, 28⟩), (str% "dct", .kw (str% "open")), (str% "span", .vec [.num ⟨0, 0⟩, .num ⟨528, 0⟩, .num ⟨588, 0⟩])],
  .map [(str% "acc", .str (str% "Assets:US:TD:Checking")), (str% "currencies", .set [.str (str% "USD")]), (str% "date", .date ⟨1972, 5, 28⟩), (str% "dct", .kw (str% "open")), (str% "span", .vec [.num ⟨0, 0⟩, .num ⟨588, 0⟩, .num ⟨631, 0⟩])],
  .map [(str% "acc", .str (str% "Equity:Opening-Balances")), (str% "date", .date ⟨1972, 5, 28⟩), (str% "dct", .kw (str% "open")), (str% "span", .vec [.num ⟨0, 0⟩, .num ⟨631, 0⟩, .num ⟨672, 0⟩])],
  .map [(str% "acc", .str (str% "Assets:US:ETrade:IBM")), (str% "date", .date ⟨2010, 3, 1⟩), (str% "dct", .kw (str% "open")), (str% "span", .vec [.num ⟨0, 0⟩, .num ⟨672, 0⟩, .num ⟨710, 0⟩])],
  .map [(str% "acc", .str (str% "Expenses:Financial:Commissions")), (str% "date", .date ⟨2010, 3, 1⟩), (str% "dct", .kw (str% "open")), (str% "span", .vec [.num ⟨0, 0⟩, .num ⟨710, 0⟩, .num ⟨758, 0⟩])],
  .map [(str% "acc", .str (str% "Assets:US:ETrade:Cash")), (str% "date", .date ⟨2010, 3, 1⟩), (str% "dct", .kw (str% "open")), (str% "span", .vec [.num ⟨0, 0⟩, .num ⟨758, 0⟩, .num ⟨797, 0⟩])],
  .map [(str% "date", .date ⟨2012, 1, 9⟩), (str% "dct", .kw (str% "txn")), (str% "flag", .str (str% "*")), (str% "metadata", .map [(str% "price", .map [(str% "string", .str (str% "expensive"))])]), (str% "narration", .str (str% "VISA DDA PUR 444500     WHOLEFDS -- VISA DDA PUR 444500     WHOLEFDS HOU 10236          NEW YORK      * NY")), (str% "postings", .vec []), (str% "span", .vec [.num ⟨0, 0⟩, .num ⟨1476, 0⟩, .num ⟨1599, 0⟩]), (str% "tags", .set [.str (str% "essential")])],
  .map [(str% "acc", .str (str% "Assets:CA:RBC-Investing:Taxable-CAD:Cash")), (str% "currencies", .set [.str (str% "CAD")]), (str% "date", .date ⟨2013, 1, 1⟩), (str% "dct", .kw (str% "open")), (str% "metadata", .map [(str% "price", .map [(str% "string", .str (str% "expensive"))])]), (str% "span", .vec [.num ⟨0, 0⟩, .num ⟨1599, 0⟩, .num ⟨1670, 0⟩]), (str% "tags", .set [.str (str% "essential")])],
  .map [(str% "date", .date ⟨2013, 1, 1⟩), (str% "dct", .kw (str% "txn")), (str% "flag", .str (str% "*")), (str% "links", .set [.str (str% "old-transactions-008")]), (str% "metadata", .map [(str% "price", .map [(str% "string", .str (str% "expensive"))])]), (str% "narration", .str (str% "Buy CRA shares")), (str% "postings", .vec [.map [(str% "acc", .str (str% "Assets:CA:RBC-Investing:Taxable-CAD:Cash")), (str% "cur", .str (str% "CAD")), (str% "price-spec", .map [(str% "cur", .str (str% "USD")), (str% "per-unit", .num ⟨6861, 4⟩)]), (str% "span", .vec [.num ⟨0, 0⟩, .num ⟨1724, 0⟩, .num ⟨1820, 0⟩]), (str% "units", .num ⟨-139543, 2⟩)], .map [(str% "acc", .str (str% "Assets:US:TD:Checking")), (str% "span", .vec [.num ⟨0, 0⟩, .num ⟨1823, 0⟩, .num ⟨1844, 0⟩])]]), (str% "span", .vec [.num ⟨0, 0⟩, .num ⟨1670, 0⟩, .num ⟨1846, 0⟩]), (str% "tags", .set [.str (str% "essential")])],
  .map [(str% "cur", .str (str% "HOOL")), (str% "date", .date ⟨2014, 7, 9⟩), (str% "dct", .kw (str% "price")), (str% "links", .set [.str (str% "cool.co")]), (str% "metadata", .map [(str% "heat", .map [(str% "string", .str (str% "on"))])]), (str% "price", .map [(str% "cur", .str (str% "USD")), (str% "per-unit", .num ⟨57918, 2⟩)]), (str% "span", .vec [.num ⟨0, 0⟩, .num ⟨413, 0⟩, .num ⟨528, 0⟩]), (str% "tags", .set [.str (str% "watcha")])],
  .map [(str% "acc", .str (str% "Assets:Bank:Savings")), (str% "date", .date ⟨2016, 3, 1⟩), (str% "dct", .kw (str% "open")), (str% "span", .vec [.num ⟨0, 0⟩, .num ⟨797, 0⟩, .num ⟨834, 0⟩])],
  .map [(str% "acc", .str (str% "Assets:Bank:Current")), (str% "currencies", .set [.str (str% "NZD")]), (str% "date", .date ⟨2016, 3, 1⟩), (str% "dct", .kw (str% "open")), (str% "links", .set [.str (str% "www.bank.com")]), (str% "span", .vec [.num ⟨0, 0⟩, .num ⟨834, 0⟩, .num ⟨927, 0⟩]), (str% "tags", .set [.str (str% "money")])],
  .map [(str% "acc", .str (str% "Expenses:Groceries")), (str% "booking", .kw (str% "fifo")), (str% "currencies", .set [.str (str% "NZD")]), (str% "date", .date ⟨2016, 3, 1⟩), (str% "dct", .kw (str% "open")), (str% "span", .vec [.num ⟨0, 0⟩, .num ⟨1095, 0⟩, .num ⟨1173, 0⟩])],
  .map [(str% "acc", .str (str% "Expenses:Entertainment:Drinks-and-snacks")), (str% "booking", .kw (str% "strict-with-size")), (str% "date", .date ⟨2016, 3, 1⟩), (str% "dct", .kw (str% "open")), (str% "span", .vec [.num ⟨0, 0⟩, .num ⟨1173, 0⟩, .num ⟨1281, 0⟩])],
  .map [(str% "acc", .str (str% "Assets:US:TD:Checking")), (str% "date", .date ⟨2017, 11, 17⟩), (str% "dct", .kw (str% "pad")), (str% "metadata", .map [(str% "price", .map [(str% "string", .str (str% "expensive"))])]), (str% "source", .str (str% "Equity:Opening-Balances")), (str% "span", .vec [.num ⟨0, 0⟩, .num ⟨1330, 0⟩, .num ⟨1391, 0⟩]), (str% "tags", .set [.str (str% "essential")])],
  .map [(str% "acc", .str (str% "Assets:US:TD:Checking")), (str% "cur", .str (str% "USD")), (str% "date", .date ⟨2017, 11, 18⟩), (str% "dct", .kw (str% "balance")), (str% "metadata", .map [(str% "price", .map [(str% "string", .str (str% "expensive"))])]), (str% "span", .vec [.num ⟨0, 0⟩, .num ⟨1391, 0⟩, .num ⟨1476, 0⟩]), (str% "tags", .set [.str (str% "essential")]), (str% "units", .num ⟨2395404, 2⟩)],
  .map [(str% "acc", .str (str% "Expenses:Car")), (str% "currencies", .set [.str (str% "NZD")]), (str% "date", .date ⟨2022, 1, 30⟩), (str% "dct", .kw (str% "open")), (str% "span", .vec [.num ⟨0, 0⟩, .num ⟨3612, 0⟩, .num ⟨3646, 0⟩])],
  .map [(str% "acc", .str (str% "Expenses:Car:Fuel")), (str% "currencies", .set [.str (str% "NZD")]), (str% "date", .date ⟨2022, 1, 30⟩), (str% "dct", .kw (str% "open")), (str% "span", .vec [.num ⟨0, 0⟩, .num ⟨3646, 0⟩, .num ⟨3685, 0⟩])],
  .map [(str% "date", .date ⟨2022, 1, 30⟩), (str% "dct", .kw (str% "txn")), (str% "flag", .str (str% "*")), (str% "narration", .str (str% "Z Energy ;")), (str% "postings", .vec [.map [(str% "acc", .str (str% "Assets:Bank:Current")), (str% "cur", .str (str% "NZD")), (str% "metadata", .map [(str% "ofxid", .map [(str% "string", .str (str% "0.12-3456-1234567-01.31May2023.3"))])]), (str% "span", .vec [.num ⟨0, 0⟩, .num ⟨3728, 0⟩, .num ⟨3809, 0⟩]), (str% "units", .num ⟨-12500, 2⟩)], .map [(str% "acc", .str (str% "Expenses:Car:Fuel")), (str% "span", .vec [.num ⟨0, 0⟩, .num ⟨3856, 0⟩, .num ⟨3873, 0⟩])]]), (str% "span", .vec [.num ⟨0, 0⟩, .num ⟨3685, 0⟩, .num ⟨3875, 0⟩]), (str% "tags", .set [.str (str% "car"), .str (str% "petrol")])],
  .map [(str% "date", .date ⟨2023, 5, 28⟩), (str% "dct", .kw (str% "event")), (str% "description", .str (str% "Plan beers")), (str% "metadata", .map [(str% "accounted-in", .map [(str% "acc", .str (str% "Expenses:Groceries"))]), (str% "budget", .map [(str% "cur", .str (str% "NZD")), (str% "units", .num ⟨12750, 2⟩)]), (str% "date", .map [(str% "date", .date ⟨2023, 5, 27⟩)]), (str% "drink", .map [(str% "string", .str (str% "alcoholic"))]), (str% "exciting", .map [(str% "bool", .bool true)]), (str% "foreigners", .map [(str% "cur", .str (str% "CAD"))]), (str% "guests-expected", .map [(str% "number", .num ⟨150, 0⟩)]), (str% "linked-to", .map [(str% "link", .str (str% "mylink"))]), (str% "pre-dated", .map [(str% "date", .date ⟨2023, 6, 1⟩)]), (str% "state", .map [(str% "string", .str (str% "anticipation"))]), (str% "tagged-with", .map [(str% "tag", .str (str% "mytag"))]), (str% "wahoo", .nil)]), (str% "span", .vec [.num ⟨0, 0⟩, .num ⟨3311, 0⟩, .num ⟨3596, 0⟩]), (str% "tags", .set [.str (str% "exciting")]), (str% "type", .str (str% "planning"))],
  .map [(str% "date", .date ⟨2023, 5, 29⟩), (str% "dct", .kw (str% "txn")), (str% "flag", .str (str% "*")), (str% "links", .set [.str (str% "newworld.co.nz")]), (str% "metadata", .map [(str% "price", .map [(str% "string", .str (str% "expensive"))])]), (str% "narration", .str (str% "New World Gardens North East Va ;")), (str% "postings", .vec [.map [(str% "acc", .str (str% "Assets:Bank:Current")), (str% "cur", .str (str% "NZD")), (str% "metadata", .map [(str% "ofxid", .map [(str% "string", .str (str% "0.12-3456-1234567-01.29May2023.1"))])]), (str% "span", .vec [.num ⟨0, 0⟩, .num ⟨1913, 0⟩, .num ⟨1969, 0⟩]), (str% "units", .num ⟨-3965, 2⟩)], .map [(str% "acc", .str (str% "Expenses:Groceries")), (str% "span", .vec [.num ⟨0, 0⟩, .num ⟨2040, 0⟩, .num ⟨2058, 0⟩])]]), (str% "span", .vec [.num ⟨0, 0⟩, .num ⟨1846, 0⟩, .num ⟨2060, 0⟩]), (str% "tags", .set [.str (str% "essential")])],
  .map [(str% "acc", .str (str% "Assets:Bank:Current")), (str% "date", .date ⟨2023, 5, 29⟩), (str% "dct", .kw (str% "pad")), (str% "metadata", .map [(str% "evil", .map [(str% "string", .str (str% "unseen"))])]), (str% "source", .str (str% "Equity:Opening-Balances")), (str% "span", .vec [.num ⟨0, 0⟩, .num ⟨2226, 0⟩, .num ⟨2310, 0⟩]), (str% "tags", .set [.str (str% "fudge")])],
  .map [(str% "acc", .str (str% "Assets:Bank:Current")), (str% "cur", .str (str% "NZD")), (str% "date", .date ⟨2023, 5, 30⟩), (str% "dct", .kw (str% "balance")), (str% "span", .vec [.num ⟨0, 0⟩, .num ⟨2310, 0⟩, .num ⟨2404, 0⟩]), (str% "tags", .set [.str (str% "richman")]), (str% "tolerance", .num ⟨1, 2⟩), (str% "units", .num ⟨1000, 0⟩)],
  .map [(str% "acc", .str (str% "Expenses:Groceries")), (str% "cur", .str (str% "NZD")), (str% "date", .date ⟨2023, 5, 30⟩), (str% "dct", .kw (str% "balance")), (str% "metadata", .map [(str% "meals", .map [(str% "string", .str (str% "cheap"))])]), (str% "span", .vec [.num ⟨0, 0⟩, .num ⟨2404, 0⟩, .num ⟨2506, 0⟩]), (str% "units", .num ⟨3965, 2⟩)],
  .map [(str% "date", .date ⟨2023, 5, 31⟩), (str% "dct", .kw (str% "txn")), (str% "flag", .str (str% "*")), (str% "metadata", .map [(str% "drink", .map [(str% "string", .str (str% "alcoholic"))])]), (str% "narration", .str (str% "EMERSON S TAPROOM DUNEDIN ;")), (str% "postings", .vec [.map [(str% "acc", .str (str% "Assets:Bank:Current")), (str% "cur", .str (str% "NZD")), (str% "metadata", .map [(str% "ofxid", .map [(str% "string", .str (str% "0.12-3456-1234567-01.31May2023.3"))])]), (str% "span", .vec [.num ⟨0, 0⟩, .num ⟨2601, 0⟩, .num ⟨2682, 0⟩]), (str% "units", .num ⟨-2500, 2⟩)], .map [(str% "acc", .str (str% "Expenses:Entertainment:Drinks-and-snacks")), (str% "links", .set [.str (str% "mylink1")]), (str% "metadata", .map [(str% "date", .map [(str% "string", .str (str% "2023-05-30"))]), (str% "just-use-a-tag", .map [(str% "tag", .str (str% "mytag"))]), (str% "key-for-link", .map [(str% "link", .str (str% "mylink"))]), (str% "open", .map [(str% "string", .str (str% "for business"))]), (str% "related_account", .map [(str% "acc", .str (str% "Expenses:Groceries"))])]), (str% "span", .vec [.num ⟨0, 0⟩, .num ⟨2729, 0⟩, .num ⟨2769, 0⟩]), (str% "tags", .set [.str (str% "mytag1")])]]), (str% "span", .vec [.num ⟨0, 0⟩, .num ⟨2535, 0⟩, .num ⟨3044, 0⟩])],
  .map [(str% "acc", .str (str% "Expenses:Entertainment:Drinks-and-snacks")), (str% "date", .date ⟨2023, 5, 31⟩), (str% "dct", .kw (str% "document")), (str% "metadata", .map [(str% "assessment", .map [(str% "string", .str (str% "worth-it"))]), (str% "drink", .map [(str% "string", .str (str% "alcoholic"))])]), (str% "path", .str (str% "2023-05-31-emersons-receipt.png")), (str% "span", .vec [.num ⟨0, 0⟩, .num ⟨3044, 0⟩, .num ⟨3171, 0⟩]), (str% "tags", .set [.str (str% "beer")])],
  .map [(str% "acc", .str (str% "Expenses:Entertainment:Drinks-and-snacks")), (str% "comment", .str (str% "met with Mickey and Minnie\n  *  Pluto couldn't come,\n  ;  which made me sad.\n  ")), (str% "date", .date ⟨2023, 5, 31⟩), (str% "dct", .kw (str% "note")), (str% "metadata", .map [(str% "drink", .map [(str% "string", .str (str% "alcoholic"))])]), (str% "span", .vec [.num ⟨0, 0⟩, .num ⟨3171, 0⟩, .num ⟨3311, 0⟩])],
  .map [(str% "date", .date ⟨2023, 5, 31⟩), (str% "dct", .kw (str% "txn")), (str% "flag", .str (str% "'Z")), (str% "narration", .str (str% "Rather expensive")), (str% "payee", .str (str% "Z Energy ;")), (str% "postings", .vec [.map [(str% "acc", .str (str% "Assets:Bank:Current")), (str% "cur", .str (str% "NZD")), (str% "flag", .str (str% "'B")), (str% "span", .vec [.num ⟨0, 0⟩, .num ⟨3931, 0⟩, .num ⟨3991, 0⟩]), (str% "units", .num ⟨-13000, 2⟩)], .map [(str% "acc", .str (str% "Expenses:Car:Fuel")), (str% "flag", .str (str% "!")), (str% "span", .vec [.num ⟨0, 0⟩, .num ⟨3994, 0⟩, .num ⟨4013, 0⟩])]]), (str% "span", .vec [.num ⟨0, 0⟩, .num ⟨3875, 0⟩, .num ⟨4015, 0⟩]), (str% "tags", .set [.str (str% "petrol")])],
  .map [(str% "date", .date ⟨2023, 6, 2⟩), (str% "dct", .kw (str% "txn")), (str% "flag", .str (str% "*")), (str% "payee", .str (str% "Repco")), (str% "postings", .vec [.map [(str% "acc", .str (str% "Assets:Bank:Current")), (str% "cur", .str (str% "NZD")), (str% "span", .vec [.num ⟨0, 0⟩, .num ⟨4041, 0⟩, .num ⟨4122, 0⟩]), (str% "units", .num ⟨-2500, 2⟩)], .map [(str% "acc", .str (str% "Expenses:Car")), (str% "span", .vec [.num ⟨0, 0⟩, .num ⟨4125, 0⟩, .num ⟨4137, 0⟩])]]), (str% "span", .vec [.num ⟨0, 0⟩, .num ⟨4015, 0⟩, .num ⟨4139, 0⟩])],
  .map [(str% "date", .date ⟨2023, 6, 10⟩), (str% "dct", .kw (str% "txn")), (str% "flag", .str (str% "*")), (str% "metadata", .map [(str% "price", .map [(str% "string", .str (str% "expensive"))])]), (str% "narration", .str (str% "Transfer")), (str% "postings", .vec [.map [(str% "acc", .str (str% "Assets:Bank:Current")), (str% "cur", .str (str% "NZD")), (str% "span", .vec [.num ⟨0, 0⟩, .num ⟨2086, 0⟩, .num ⟨2167, 0⟩]), (str% "units", .num ⟨-10000, 2⟩)], .map [(str% "acc", .str (str% "Assets:Bank:Savings")), (str% "span", .vec [.num ⟨0, 0⟩, .num ⟨2170, 0⟩, .num ⟨2189, 0⟩])]]), (str% "span", .vec [.num ⟨0, 0⟩, .num ⟨2060, 0⟩, .num ⟨2191, 0⟩]), (str% "tags", .set [.str (str% "essential")])],
  .map [(str% "date", .date ⟨2024, 2, 16⟩), (str% "dct", .kw (str% "txn")), (str% "flag", .str (str% "*")), (str% "narration", .str (str% "Buying some IBM")), (str% "postings", .vec [.map [(str% "acc", .str (str% "Assets:US:ETrade:IBM")), (str% "cost-spec", .map [(str% "cur", .str (str% "USD")), (str% "label", .str (str% "first\nsecond")), (str% "per-unit", .num ⟨16000, 2⟩)]), (str% "cur", .str (str% "IBM")), (str% "span", .vec [.num ⟨0, 0⟩, .num ⟨4172, 0⟩, .num ⟨4283, 0⟩]), (str% "units", .num ⟨10, 0⟩)], .map [(str% "acc", .str (str% "Assets:US:ETrade:Cash")), (str% "span", .vec [.num ⟨0, 0⟩, .num ⟨4286, 0⟩, .num ⟨4307, 0⟩])], .map [(str% "acc", .str (str% "Expenses:Financial:Commissions")), (str% "cur", .str (str% "USD")), (str% "span", .vec [.num ⟨0, 0⟩, .num ⟨4310, 0⟩, .num ⟨4391, 0⟩]), (str% "units", .num ⟨995, 2⟩)]]), (str% "span", .vec [.num ⟨0, 0⟩, .num ⟨4139, 0⟩, .num ⟨4393, 0⟩])],
  .map [(str% "acc", .str (str% "Assets:Bank:Current")), (str% "date", .date ⟨2024, 3, 1⟩), (str% "dct", .kw (str% "close")), (str% "links", .set [.str (str% "solong.and.thanks")]), (str% "span", .vec [.num ⟨0, 0⟩, .num ⟨927, 0⟩, .num ⟨1095, 0⟩]), (str% "tags", .set [.str (str% "seeya")])],
  .map [(str% "content", .str (str% "SELECT money FROM accounts;")), (str% "date", .date ⟨2025, 1, 1⟩), (str% "dct", .kw (str% "query")), (str% "metadata", .map [(str% "status", .map [(str% "string", .str (str% "bogus"))])]), (str% "name", .str (str% "fictional SQL")), (str% "span", .vec [.num ⟨0, 0⟩, .num ⟨4393, 0⟩, .num ⟨4488, 0⟩]), (str% "tags", .set [.str (str% "for-testing")])],
  .map [(str% "date", .date ⟨2025, 2, 10⟩), (str% "dct", .kw (str% "custom")), (str% "links", .set [.str (str% "i-am-a-meta-link")]), (str% "metadata", .map [(str% "i-am-meta", .map [(str% "string", .str (str% "yay!"))])]), (str% "span", .vec [.num ⟨0, 0⟩, .num ⟨4488, 0⟩, .num ⟨4682, 0⟩]), (str% "tags", .set [.str (str% "i-am-a-meta-tag")]), (str% "type", .str (str% "all the things!")), (str% "values", .vec [.map [(str% "cur", .str (str% "USD")), (str% "units", .num ⟨1050, 2⟩)], .map [(str% "string", .str (str% "anticipation"))], .map [(str% "cur", .str (str% "CAD"))], .map [(str% "acc", .str (str% "Expenses:Groceries"))], .map [(str% "tag", .str (str% "my-custom-tag"))], .map [(str% "link", .str (str% "my-custom-link"))], .map [(str% "date", .date ⟨2023, 6, 1⟩)], .map [(str% "bool", .bool true)], .map [(str% "number", .num ⟨150, 0⟩)]])]]

/-- How the library booked its transactions. -/
def answers : List (List (Option Span) × List Interpolated) := [
  ([], []),
  ([some ⟨0, 1724, 1820⟩, some ⟨0, 1823, 1844⟩], [{ units := ⟨-139543, 2⟩, currency := str% "CAD", price := some { perUnit := ⟨6861, 4⟩, cur := str% "USD", total := some ⟨-957404523, 6⟩ } }, { units := ⟨95740, 2⟩, currency := str% "USD" }]),
  ([some ⟨0, 3728, 3809⟩, some ⟨0, 3856, 3873⟩], [{ units := ⟨-12500, 2⟩, currency := str% "NZD" }, { units := ⟨12500, 2⟩, currency := str% "NZD" }]),
  ([some ⟨0, 1913, 1969⟩, some ⟨0, 2040, 2058⟩], [{ units := ⟨-3965, 2⟩, currency := str% "NZD" }, { units := ⟨3965, 2⟩, currency := str% "NZD" }]),
  ([some ⟨0, 2601, 2682⟩, some ⟨0, 2729, 2769⟩], [{ units := ⟨-2500, 2⟩, currency := str% "NZD" }, { units := ⟨2500, 2⟩, currency := str% "NZD" }]),
  ([some ⟨0, 3931, 3991⟩, some ⟨0, 3994, 4013⟩], [{ units := ⟨-13000, 2⟩, currency := str% "NZD" }, { units := ⟨13000, 2⟩, currency := str% "NZD" }]),
  ([some ⟨0, 4041, 4122⟩, some ⟨0, 4125, 4137⟩], [{ units := ⟨-2500, 2⟩, currency := str% "NZD" }, { units := ⟨2500, 2⟩, currency := str% "NZD" }]),
  ([some ⟨0, 2086, 2167⟩, some ⟨0, 2170, 2189⟩], [{ units := ⟨-10000, 2⟩, currency := str% "NZD" }, { units := ⟨10000, 2⟩, currency := str% "NZD" }]),
  ([some ⟨0, 4172, 4283⟩, some ⟨0, 4286, 4307⟩, some ⟨0, 4310, 4391⟩], [{ units := ⟨10, 0⟩, currency := str% "IBM", cost := some [{ cur := str% "USD", units := ⟨10, 0⟩, date := ⟨2024, 2, 16⟩, perUnit := ⟨16000, 2⟩, total := ⟨160000, 2⟩, label := some (str% "first\nsecond") }] }, { units := ⟨-160995, 2⟩, currency := str% "USD" }, { units := ⟨995, 2⟩, currency := str% "USD" }])]

/-- The library. -/
def library : BookLib := replay answers

example : library.Lawful := replay_lawful (by decide +kernel)

/-- The model, run on it. -/
def result := loaded library {} [(str% "limabean.test.plugins.identity", none)] ledger

/-- test-cases/full.golden/directives.edn -/
def directivesEdn : List Data := [
  .map [(str% "cur", .str (str% "NZD")), (str% "date", .date ⟨1970, 1, 1⟩), (str% "dct", .kw (str% "commodity")), (str% "idx", .num ⟨0, 0⟩), (str% "links", .set [.str (str% "money.co.nz")]), (str% "span", .vec [.num ⟨0, 0⟩, .num ⟨278, 0⟩, .num ⟨413, 0⟩]), (str% "tags", .set [.str (str% "downunder")])],
  .map [(str% "acc", .str (str% "Assets:AccountsReceivable:Taxes")), (str% "currencies", .set [.str (str% "CAD"), .str (str% "USD")]), (str% "date", .date ⟨1972, 5, 28⟩), (str% "dct", .kw (str% "open")), (str% "idx", .num ⟨1, 0⟩), (str% "span", .vec [.num ⟨0, 0⟩, .num ⟨528, 0⟩, .num ⟨588, 0⟩])],
  .map [(str% "acc", .str (str% "Assets:US:TD:Checking")), (str% "currencies", .set [.str (str% "USD")]), (str% "date", .date ⟨1972, 5, 28⟩), (str% "dct", .kw (str% "open")), (str% "idx", .num ⟨2, 0⟩), (str% "span", .vec [.num ⟨0, 0⟩, .num ⟨588, 0⟩, .num ⟨631, 0⟩])],
  .map [(str% "acc", .str (str% "Equity:Opening-Balances")), (str% "date", .date ⟨1972, 5, 28⟩), (str% "dct", .kw (str% "open")), (str% "idx", .num ⟨3, 0⟩), (str% "span", .vec [.num ⟨0, 0⟩, .num ⟨631, 0⟩, .num ⟨672, 0⟩])],
  .map [(str% "acc", .str (str% "Assets:US:ETrade:IBM")), (str% "date", .date ⟨2010, 3, 1⟩), (str% "dct", .kw (str% "open")), (str% "idx", .num ⟨4, 0⟩), (str% "span", .vec [.num ⟨0, 0⟩, .num ⟨672, 0⟩, .num ⟨710, 0⟩])],
  .map [(str% "acc", .str (str% "Expenses:Financial:Commissions")), (str% "date", .date ⟨2010, 3, 1⟩), (str% "dct", .kw (str% "open")), (str% "idx", .num ⟨5, 0⟩), (str% "span", .vec [.num ⟨0, 0⟩, .num ⟨710, 0⟩, .num ⟨758, 0⟩])],
  .map [(str% "acc", .str (str% "Assets:US:ETrade:Cash")), (str% "date", .date ⟨2010, 3, 1⟩), (str% "dct", .kw (str% "open")), (str% "idx", .num ⟨6, 0⟩), (str% "span", .vec [.num ⟨0, 0⟩, .num ⟨758, 0⟩, .num ⟨797, 0⟩])],
  .map [(str% "date", .date ⟨2012, 1, 9⟩), (str% "dct", .kw (str% "txn")), (str% "flag", .str (str% "*")), (str% "idx", .num ⟨7, 0⟩), (str% "metadata", .map [(str% "price", .map [(str% "string", .str (str% "expensive"))])]), (str% "narration", .str (str% "VISA DDA PUR 444500     WHOLEFDS -- VISA DDA PUR 444500     WHOLEFDS HOU 10236          NEW YORK      * NY")), (str% "postings", .vec []), (str% "span", .vec [.num ⟨0, 0⟩, .num ⟨1476, 0⟩, .num ⟨1599, 0⟩]), (str% "tags", .set [.str (str% "essential")])],
  .map [(str% "acc", .str (str% "Assets:CA:RBC-Investing:Taxable-CAD:Cash")), (str% "currencies", .set [.str (str% "CAD")]), (str% "date", .date ⟨2013, 1, 1⟩), (str% "dct", .kw (str% "open")), (str% "idx", .num ⟨8, 0⟩), (str% "metadata", .map [(str% "price", .map [(str% "string", .str (str% "expensive"))])]), (str% "span", .vec [.num ⟨0, 0⟩, .num ⟨1599, 0⟩, .num ⟨1670, 0⟩]), (str% "tags", .set [.str (str% "essential")])],
  .map [(str% "date", .date ⟨2013, 1, 1⟩), (str% "dct", .kw (str% "txn")), (str% "flag", .str (str% "*")), (str% "idx", .num ⟨9, 0⟩), (str% "links", .set [.str (str% "old-transactions-008")]), (str% "metadata", .map [(str% "price", .map [(str% "string", .str (str% "expensive"))])]), (str% "narration", .str (str% "Buy CRA shares")), (str% "postings", .vec [.map [(str% "acc", .str (str% "Assets:CA:RBC-Investing:Taxable-CAD:Cash")), (str% "cur", .str (str% "CAD")), (str% "idx", .num ⟨0, 0⟩), (str% "price", .map [(str% "cur", .str (str% "USD")), (str% "per-unit", .num ⟨6861, 4⟩), (str% "total", .num ⟨-957404523, 6⟩)]), (str% "span", .vec [.num ⟨0, 0⟩, .num ⟨1724, 0⟩, .num ⟨1820, 0⟩]), (str% "units", .num ⟨-139543, 2⟩)], .map [(str% "acc", .str (str% "Assets:US:TD:Checking")), (str% "cur", .str (str% "USD")), (str% "idx", .num ⟨1, 0⟩), (str% "span", .vec [.num ⟨0, 0⟩, .num ⟨1823, 0⟩, .num ⟨1844, 0⟩]), (str% "units", .num ⟨95740, 2⟩)]]), (str% "span", .vec [.num ⟨0, 0⟩, .num ⟨1670, 0⟩, .num ⟨1846, 0⟩]), (str% "tags", .set [.str (str% "essential")])],
  .map [(str% "cur", .str (str% "HOOL")), (str% "date", .date ⟨2014, 7, 9⟩), (str% "dct", .kw (str% "price")), (str% "idx", .num ⟨10, 0⟩), (str% "links", .set [.str (str% "cool.co")]), (str% "metadata", .map [(str% "heat", .map [(str% "string", .str (str% "on"))])]), (str% "price", .map [(str% "cur", .str (str% "USD")), (str% "per-unit", .num ⟨57918, 2⟩)]), (str% "span", .vec [.num ⟨0, 0⟩, .num ⟨413, 0⟩, .num ⟨528, 0⟩]), (str% "tags", .set [.str (str% "watcha")])],
  .map [(str% "acc", .str (str% "Assets:Bank:Savings")), (str% "date", .date ⟨2016, 3, 1⟩), (str% "dct", .kw (str% "open")), (str% "idx", .num ⟨11, 0⟩), (str% "span", .vec [.num ⟨0, 0⟩, .num ⟨797, 0⟩, .num ⟨834, 0⟩])],
  .map [(str% "acc", .str (str% "Assets:Bank:Current")), (str% "currencies", .set [.str (str% "NZD")]), (str% "date", .date ⟨2016, 3, 1⟩), (str% "dct", .kw (str% "open")), (str% "idx", .num ⟨12, 0⟩), (str% "links", .set [.str (str% "www.bank.com")]), (str% "span", .vec [.num ⟨0, 0⟩, .num ⟨834, 0⟩, .num ⟨927, 0⟩]), (str% "tags", .set [.str (str% "money")])],
  .map [(str% "acc", .str (str% "Expenses:Groceries")), (str% "booking", .kw (str% "fifo")), (str% "currencies", .set [.str (str% "NZD")]), (str% "date", .date ⟨2016, 3, 1⟩), (str% "dct", .kw (str% "open")), (str% "idx", .num ⟨13, 0⟩), (str% "span", .vec [.num ⟨0, 0⟩, .num ⟨1095, 0⟩, .num ⟨1173, 0⟩])],
  .map [(str% "acc", .str (str% "Expenses:Entertainment:Drinks-and-snacks")), (str% "booking", .kw (str% "strict-with-size")), (str% "date", .date ⟨2016, 3, 1⟩), (str% "dct", .kw (str% "open")), (str% "idx", .num ⟨14, 0⟩), (str% "span", .vec [.num ⟨0, 0⟩, .num ⟨1173, 0⟩, .num ⟨1281, 0⟩])],
  .map [(str% "acc", .str (str% "Assets:US:TD:Checking")), (str% "date", .date ⟨2017, 11, 17⟩), (str% "dct", .kw (str% "pad")), (str% "idx", .num ⟨15, 0⟩), (str% "metadata", .map [(str% "price", .map [(str% "string", .str (str% "expensive"))])]), (str% "source", .str (str% "Equity:Opening-Balances")), (str% "span", .vec [.num ⟨0, 0⟩, .num ⟨1330, 0⟩, .num ⟨1391, 0⟩]), (str% "tags", .set [.str (str% "essential")])],
  .map [(str% "date", .date ⟨2017, 11, 17⟩), (str% "dct", .kw (str% "txn")), (str% "flag", .str (str% "'P")), (str% "idx", .num ⟨15, 0⟩), (str% "metadata", .map [(str% "price", .map [(str% "string", .str (str% "expensive"))])]), (str% "postings", .vec [.map [(str% "acc", .str (str% "Assets:US:TD:Checking")), (str% "cur", .str (str% "USD")), (str% "flag", .str (str% "'P")), (str% "units", .num ⟨2299664, 2⟩)], .map [(str% "acc", .str (str% "Equity:Opening-Balances")), (str% "cur", .str (str% "USD")), (str% "flag", .str (str% "'P")), (str% "units", .num ⟨-2299664, 2⟩)]]), (str% "span", .vec [.num ⟨0, 0⟩, .num ⟨1330, 0⟩, .num ⟨1391, 0⟩]), (str% "tags", .set [.str (str% "essential")])],
  .map [(str% "acc", .str (str% "Assets:US:TD:Checking")), (str% "cur", .str (str% "USD")), (str% "date", .date ⟨2017, 11, 18⟩), (str% "dct", .kw (str% "balance")), (str% "idx", .num ⟨16, 0⟩), (str% "metadata", .map [(str% "price", .map [(str% "string", .str (str% "expensive"))])]), (str% "span", .vec [.num ⟨0, 0⟩, .num ⟨1391, 0⟩, .num ⟨1476, 0⟩]), (str% "tags", .set [.str (str% "essential")]), (str% "units", .num ⟨2395404, 2⟩)],
  .map [(str% "acc", .str (str% "Expenses:Car")), (str% "currencies", .set [.str (str% "NZD")]), (str% "date", .date ⟨2022, 1, 30⟩), (str% "dct", .kw (str% "open")), (str% "idx", .num ⟨17, 0⟩), (str% "span", .vec [.num ⟨0, 0⟩, .num ⟨3612, 0⟩, .num ⟨3646, 0⟩])],
  .map [(str% "acc", .str (str% "Expenses:Car:Fuel")), (str% "currencies", .set [.str (str% "NZD")]), (str% "date", .date ⟨2022, 1, 30⟩), (str% "dct", .kw (str% "open")), (str% "idx", .num ⟨18, 0⟩), (str% "span", .vec [.num ⟨0, 0⟩, .num ⟨3646, 0⟩, .num ⟨3685, 0⟩])],
  .map [(str% "date", .date ⟨2022, 1, 30⟩), (str% "dct", .kw (str% "txn")), (str% "flag", .str (str% "*")), (str% "idx", .num ⟨19, 0⟩), (str% "narration", .str (str% "Z Energy ;")), (str% "postings", .vec [.map [(str% "acc", .str (str% "Assets:Bank:Current")), (str% "cur", .str (str% "NZD")), (str% "idx", .num ⟨0, 0⟩), (str% "metadata", .map [(str% "ofxid", .map [(str% "string", .str (str% "0.12-3456-1234567-01.31May2023.3"))])]), (str% "span", .vec [.num ⟨0, 0⟩, .num ⟨3728, 0⟩, .num ⟨3809, 0⟩]), (str% "units", .num ⟨-12500, 2⟩)], .map [(str% "acc", .str (str% "Expenses:Car:Fuel")), (str% "cur", .str (str% "NZD")), (str% "idx", .num ⟨1, 0⟩), (str% "span", .vec [.num ⟨0, 0⟩, .num ⟨3856, 0⟩, .num ⟨3873, 0⟩]), (str% "units", .num ⟨12500, 2⟩)]]), (str% "span", .vec [.num ⟨0, 0⟩, .num ⟨3685, 0⟩, .num ⟨3875, 0⟩]), (str% "tags", .set [.str (str% "car"), .str (str% "petrol")])],
  .map [(str% "date", .date ⟨2023, 5, 28⟩), (str% "dct", .kw (str% "event")), (str% "description", .str (str% "Plan beers")), (str% "idx", .num ⟨20, 0⟩), (str% "metadata", .map [(str% "accounted-in", .map [(str% "acc", .str (str% "Expenses:Groceries"))]), (str% "budget", .map [(str% "cur", .str (str% "NZD")), (str% "units", .num ⟨12750, 2⟩)]), (str% "date", .map [(str% "date", .date ⟨2023, 5, 27⟩)]), (str% "drink", .map [(str% "string", .str (str% "alcoholic"))]), (str% "exciting", .map [(str% "bool", .bool true)]), (str% "foreigners", .map [(str% "cur", .str (str% "CAD"))]), (str% "guests-expected", .map [(str% "number", .num ⟨150, 0⟩)]), (str% "linked-to", .map [(str% "link", .str (str% "mylink"))]), (str% "pre-dated", .map [(str% "date", .date ⟨2023, 6, 1⟩)]), (str% "state", .map [(str% "string", .str (str% "anticipation"))]), (str% "tagged-with", .map [(str% "tag", .str (str% "mytag"))]), (str% "wahoo", .nil)]), (str% "span", .vec [.num ⟨0, 0⟩, .num ⟨3311, 0⟩, .num ⟨3596, 0⟩]), (str% "tags", .set [.str (str% "exciting")]), (str% "type", .str (str% "planning"))],
  .map [(str% "date", .date ⟨2023, 5, 29⟩), (str% "dct", .kw (str% "txn")), (str% "flag", .str (str% "*")), (str% "idx", .num ⟨21, 0⟩), (str% "links", .set [.str (str% "newworld.co.nz")]), (str% "metadata", .map [(str% "price", .map [(str% "string", .str (str% "expensive"))])]), (str% "narration", .str (str% "New World Gardens North East Va ;")), (str% "postings", .vec [.map [(str% "acc", .str (str% "Assets:Bank:Current")), (str% "cur", .str (str% "NZD")), (str% "idx", .num ⟨0, 0⟩), (str% "metadata", .map [(str% "ofxid", .map [(str% "string", .str (str% "0.12-3456-1234567-01.29May2023.1"))])]), (str% "span", .vec [.num ⟨0, 0⟩, .num ⟨1913, 0⟩, .num ⟨1969, 0⟩]), (str% "units", .num ⟨-3965, 2⟩)], .map [(str% "acc", .str (str% "Expenses:Groceries")), (str% "cur", .str (str% "NZD")), (str% "idx", .num ⟨1, 0⟩), (str% "span", .vec [.num ⟨0, 0⟩, .num ⟨2040, 0⟩, .num ⟨2058, 0⟩]), (str% "units", .num ⟨3965, 2⟩)]]), (str% "span", .vec [.num ⟨0, 0⟩, .num ⟨1846, 0⟩, .num ⟨2060, 0⟩]), (str% "tags", .set [.str (str% "essential")])],
  .map [(str% "acc", .str (str% "Assets:Bank:Current")), (str% "date", .date ⟨2023, 5, 29⟩), (str% "dct", .kw (str% "pad")), (str% "idx", .num ⟨22, 0⟩), (str% "metadata", .map [(str% "evil", .map [(str% "string", .str (str% "unseen"))])]), (str% "source", .str (str% "Equity:Opening-Balances")), (str% "span", .vec [.num ⟨0, 0⟩, .num ⟨2226, 0⟩, .num ⟨2310, 0⟩]), (str% "tags", .set [.str (str% "fudge")])],
  .map [(str% "date", .date ⟨2023, 5, 29⟩), (str% "dct", .kw (str% "txn")), (str% "flag", .str (str% "'P")), (str% "idx", .num ⟨22, 0⟩), (str% "metadata", .map [(str% "evil", .map [(str% "string", .str (str% "unseen"))])]), (str% "postings", .vec [.map [(str% "acc", .str (str% "Assets:Bank:Current")), (str% "cur", .str (str% "NZD")), (str% "flag", .str (str% "'P")), (str% "units", .num ⟨116465, 2⟩)], .map [(str% "acc", .str (str% "Equity:Opening-Balances")), (str% "cur", .str (str% "NZD")), (str% "flag", .str (str% "'P")), (str% "units", .num ⟨-116465, 2⟩)]]), (str% "span", .vec [.num ⟨0, 0⟩, .num ⟨2226, 0⟩, .num ⟨2310, 0⟩]), (str% "tags", .set [.str (str% "fudge")])],
  .map [(str% "acc", .str (str% "Assets:Bank:Current")), (str% "cur", .str (str% "NZD")), (str% "date", .date ⟨2023, 5, 30⟩), (str% "dct", .kw (str% "balance")), (str% "idx", .num ⟨23, 0⟩), (str% "span", .vec [.num ⟨0, 0⟩, .num ⟨2310, 0⟩, .num ⟨2404, 0⟩]), (str% "tags", .set [.str (str% "richman")]), (str% "tolerance", .num ⟨1, 2⟩), (str% "units", .num ⟨1000, 0⟩)],
  .map [(str% "acc", .str (str% "Expenses:Groceries")), (str% "cur", .str (str% "NZD")), (str% "date", .date ⟨2023, 5, 30⟩), (str% "dct", .kw (str% "balance")), (str% "idx", .num ⟨24, 0⟩), (str% "metadata", .map [(str% "meals", .map [(str% "string", .str (str% "cheap"))])]), (str% "span", .vec [.num ⟨0, 0⟩, .num ⟨2404, 0⟩, .num ⟨2506, 0⟩]), (str% "units", .num ⟨3965, 2⟩)],
  .map [(str% "date", .date ⟨2023, 5, 31⟩), (str% "dct", .kw (str% "txn")), (str% "flag", .str (str% "*")), (str% "idx", .num ⟨25, 0⟩), (str% "metadata", .map [(str% "drink", .map [(str% "string", .str (str% "alcoholic"))])]), (str% "narration", .str (str% "EMERSON S TAPROOM DUNEDIN ;")), (str% "postings", .vec [.map [(str% "acc", .str (str% "Assets:Bank:Current")), (str% "cur", .str (str% "NZD")), (str% "idx", .num ⟨0, 0⟩), (str% "metadata", .map [(str% "ofxid", .map [(str% "string", .str (str% "0.12-3456-1234567-01.31May2023.3"))])]), (str% "span", .vec [.num ⟨0, 0⟩, .num ⟨2601, 0⟩, .num ⟨2682, 0⟩]), (str% "units", .num ⟨-2500, 2⟩)], .map [(str% "acc", .str (str% "Expenses:Entertainment:Drinks-and-snacks")), (str% "cur", .str (str% "NZD")), (str% "idx", .num ⟨1, 0⟩), (str% "links", .set [.str (str% "mylink1")]), (str% "metadata", .map [(str% "date", .map [(str% "string", .str (str% "2023-05-30"))]), (str% "just-use-a-tag", .map [(str% "tag", .str (str% "mytag"))]), (str% "key-for-link", .map [(str% "link", .str (str% "mylink"))]), (str% "open", .map [(str% "string", .str (str% "for business"))]), (str% "related_account", .map [(str% "acc", .str (str% "Expenses:Groceries"))])]), (str% "span", .vec [.num ⟨0, 0⟩, .num ⟨2729, 0⟩, .num ⟨2769, 0⟩]), (str% "tags", .set [.str (str% "mytag1")]), (str% "units", .num ⟨2500, 2⟩)]]), (str% "span", .vec [.num ⟨0, 0⟩, .num ⟨2535, 0⟩, .num ⟨3044, 0⟩])],
  .map [(str% "acc", .str (str% "Expenses:Entertainment:Drinks-and-snacks")), (str% "date", .date ⟨2023, 5, 31⟩), (str% "dct", .kw (str% "document")), (str% "idx", .num ⟨26, 0⟩), (str% "metadata", .map [(str% "assessment", .map [(str% "string", .str (str% "worth-it"))]), (str% "drink", .map [(str% "string", .str (str% "alcoholic"))])]), (str% "path", .str (str% "2023-05-31-emersons-receipt.png")), (str% "span", .vec [.num ⟨0, 0⟩, .num ⟨3044, 0⟩, .num ⟨3171, 0⟩]), (str% "tags", .set [.str (str% "beer")])],
  .map [(str% "acc", .str (str% "Expenses:Entertainment:Drinks-and-snacks")), (str% "comment", .str (str% "met with Mickey and Minnie\n  *  Pluto couldn't come,\n  ;  which made me sad.\n  ")), (str% "date", .date ⟨2023, 5, 31⟩), (str% "dct", .kw (str% "note")), (str% "idx", .num ⟨27, 0⟩), (str% "metadata", .map [(str% "drink", .map [(str% "string", .str (str% "alcoholic"))])]), (str% "span", .vec [.num ⟨0, 0⟩, .num ⟨3171, 0⟩, .num ⟨3311, 0⟩])],
  .map [(str% "date", .date ⟨2023, 5, 31⟩), (str% "dct", .kw (str% "txn")), (str% "flag", .str (str% "'Z")), (str% "idx", .num ⟨28, 0⟩), (str% "narration", .str (str% "Rather expensive")), (str% "payee", .str (str% "Z Energy ;")), (str% "postings", .vec [.map [(str% "acc", .str (str% "Assets:Bank:Current")), (str% "cur", .str (str% "NZD")), (str% "flag", .str (str% "'B")), (str% "idx", .num ⟨0, 0⟩), (str% "span", .vec [.num ⟨0, 0⟩, .num ⟨3931, 0⟩, .num ⟨3991, 0⟩]), (str% "units", .num ⟨-13000, 2⟩)], .map [(str% "acc", .str (str% "Expenses:Car:Fuel")), (str% "cur", .str (str% "NZD")), (str% "flag", .str (str% "!")), (str% "idx", .num ⟨1, 0⟩), (str% "span", .vec [.num ⟨0, 0⟩, .num ⟨3994, 0⟩, .num ⟨4013, 0⟩]), (str% "units", .num ⟨13000, 2⟩)]]), (str% "span", .vec [.num ⟨0, 0⟩, .num ⟨3875, 0⟩, .num ⟨4015, 0⟩]), (str% "tags", .set [.str (str% "petrol")])],
  .map [(str% "date", .date ⟨2023, 6, 2⟩), (str% "dct", .kw (str% "txn")), (str% "flag", .str (str% "*")), (str% "idx", .num ⟨29, 0⟩), (str% "payee", .str (str% "Repco")), (str% "postings", .vec [.map [(str% "acc", .str (str% "Assets:Bank:Current")), (str% "cur", .str (str% "NZD")), (str% "idx", .num ⟨0, 0⟩), (str% "span", .vec [.num ⟨0, 0⟩, .num ⟨4041, 0⟩, .num ⟨4122, 0⟩]), (str% "units", .num ⟨-2500, 2⟩)], .map [(str% "acc", .str (str% "Expenses:Car")), (str% "cur", .str (str% "NZD")), (str% "idx", .num ⟨1, 0⟩), (str% "span", .vec [.num ⟨0, 0⟩, .num ⟨4125, 0⟩, .num ⟨4137, 0⟩]), (str% "units", .num ⟨2500, 2⟩)]]), (str% "span", .vec [.num ⟨0, 0⟩, .num ⟨4015, 0⟩, .num ⟨4139, 0⟩])],
  .map [(str% "date", .date ⟨2023, 6, 10⟩), (str% "dct", .kw (str% "txn")), (str% "flag", .str (str% "*")), (str% "idx", .num ⟨30, 0⟩), (str% "metadata", .map [(str% "price", .map [(str% "string", .str (str% "expensive"))])]), (str% "narration", .str (str% "Transfer")), (str% "postings", .vec [.map [(str% "acc", .str (str% "Assets:Bank:Current")), (str% "cur", .str (str% "NZD")), (str% "idx", .num ⟨0, 0⟩), (str% "span", .vec [.num ⟨0, 0⟩, .num ⟨2086, 0⟩, .num ⟨2167, 0⟩]), (str% "units", .num ⟨-10000, 2⟩)], .map [(str% "acc", .str (str% "Assets:Bank:Savings")), (str% "cur", .str (str% "NZD")), (str% "idx", .num ⟨1, 0⟩), (str% "span", .vec [.num ⟨0, 0⟩, .num ⟨2170, 0⟩, .num ⟨2189, 0⟩]), (str% "units", .num ⟨10000, 2⟩)]]), (str% "span", .vec [.num ⟨0, 0⟩, .num ⟨2060, 0⟩, .num ⟨2191, 0⟩]), (str% "tags", .set [.str (str% "essential")])],
  .map [(str% "date", .date ⟨2024, 2, 16⟩), (str% "dct", .kw (str% "txn")), (str% "flag", .str (str% "*")), (str% "idx", .num ⟨31, 0⟩), (str% "narration", .str (str% "Buying some IBM")), (str% "postings", .vec [.map [(str% "acc", .str (str% "Assets:US:ETrade:IBM")), (str% "cost", .map [(str% "cur", .str (str% "USD")), (str% "date", .date ⟨2024, 2, 16⟩), (str% "label", .str (str% "first\nsecond")), (str% "per-unit", .num ⟨16000, 2⟩), (str% "total", .num ⟨160000, 2⟩)]), (str% "cur", .str (str% "IBM")), (str% "idx", .num ⟨0, 0⟩), (str% "span", .vec [.num ⟨0, 0⟩, .num ⟨4172, 0⟩, .num ⟨4283, 0⟩]), (str% "units", .num ⟨10, 0⟩)], .map [(str% "acc", .str (str% "Assets:US:ETrade:Cash")), (str% "cur", .str (str% "USD")), (str% "idx", .num ⟨1, 0⟩), (str% "span", .vec [.num ⟨0, 0⟩, .num ⟨4286, 0⟩, .num ⟨4307, 0⟩]), (str% "units", .num ⟨-160995, 2⟩)], .map [(str% "acc", .str (str% "Expenses:Financial:Commissions")), (str% "cur", .str (str% "USD")), (str% "idx", .num ⟨2, 0⟩), (str% "span", .vec [.num ⟨0, 0⟩, .num ⟨4310, 0⟩, .num ⟨4391, 0⟩]), (str% "units", .num ⟨995, 2⟩)]]), (str% "span", .vec [.num ⟨0, 0⟩, .num ⟨4139, 0⟩, .num ⟨4393, 0⟩])],
  .map [(str% "acc", .str (str% "Assets:Bank:Current")), (str% "date", .date ⟨2024, 3, 1⟩), (str% "dct", .kw (str% "close")), (str% "idx", .num ⟨32, 0⟩), (str% "links", .set [.str (str% "solong.and.thanks")]), (str% "span", .vec [.num ⟨0, 0⟩, .num ⟨927, 0⟩, .num ⟨1095, 0⟩]), (str% "tags", .set [.str (str% "seeya")])],
  .map [(str% "content", .str (str% "SELECT money FROM accounts;")), (str% "date", .date ⟨2025, 1, 1⟩), (str% "dct", .kw (str% "query")), (str% "idx", .num ⟨33, 0⟩), (str% "metadata", .map [(str% "status", .map [(str% "string", .str (str% "bogus"))])]), (str% "name", .str (str% "fictional SQL")), (str% "span", .vec [.num ⟨0, 0⟩, .num ⟨4393, 0⟩, .num ⟨4488, 0⟩]), (str% "tags", .set [.str (str% "for-testing")])],
  .map [(str% "date", .date ⟨2025, 2, 10⟩), (str% "dct", .kw (str% "custom")), (str% "idx", .num ⟨34, 0⟩), (str% "links", .set [.str (str% "i-am-a-meta-link")]), (str% "metadata", .map [(str% "i-am-meta", .map [(str% "string", .str (str% "yay!"))])]), (str% "span", .vec [.num ⟨0, 0⟩, .num ⟨4488, 0⟩, .num ⟨4682, 0⟩]), (str% "tags", .set [.str (str% "i-am-a-meta-tag")]), (str% "type", .str (str% "all the things!")), (str% "values", .vec [.map [(str% "cur", .str (str% "USD")), (str% "units", .num ⟨1050, 2⟩)], .map [(str% "string", .str (str% "anticipation"))], .map [(str% "cur", .str (str% "CAD"))], .map [(str% "acc", .str (str% "Expenses:Groceries"))], .map [(str% "tag", .str (str% "my-custom-tag"))], .map [(str% "link", .str (str% "my-custom-link"))], .map [(str% "date", .date ⟨2023, 6, 1⟩)], .map [(str% "bool", .bool true)], .map [(str% "number", .num ⟨150, 0⟩)]])]]

example : directivesAre result directivesEdn = true := by decide +kernel

/-- test-cases/full.golden/directives.fyi.beancount -/
example : textIs directivesEdn
    (str% "1970-01-01 commodity NZD #downunder ^money.co.nz\n\n1972-05-28 open Assets:AccountsReceivable:Taxes CAD,USD\n\n1972-05-28 open Assets:US:TD:Checking USD\n\n1972-05-28 open Equity:Opening-Balances\n\n2010-03-01 open Assets:US:ETrade:IBM\n\n2010-03-01 open Expenses:Financial:Commissions\n\n2010-03-01 open Assets:US:ETrade:Cash\n\n2012-01-09 * \"VISA DDA PUR 444500     WHOLEFDS -- VISA DDA PUR 444500     WHOLEFDS HOU 10236          NEW YORK      * NY\" #essential\n  price: \"expensive\"\n\n2013-01-01 open Assets:CA:RBC-Investing:Taxable-CAD:Cash CAD #essential\n  price: \"expensive\"\n\n2013-01-01 * \"Buy CRA shares\" #essential ^old-transactions-008\n  price: \"expensive\"\n  Assets:CA:RBC-Investing:Taxable-CAD:Cash -1395.43 CAD @ 0.6861 USD\n  Assets:US:TD:Checking 957.40 USD\n\n2014-07-09 price HOOL 579.18 USD #watcha ^cool.co\n  heat: \"on\"\n\n2016-03-01 open Assets:Bank:Savings\n\n2016-03-01 open Assets:Bank:Current NZD #money ^www.bank.com\n\n2016-03-01 open Expenses:Groceries NZD \"FIFO\"\n\n2016-03-01 open Expenses:Entertainment:Drinks-and-snacks \"STRICT_WITH_SIZE\"\n\n2017-11-17 pad Assets:US:TD:Checking Equity:Opening-Balances #essential\n  price: \"expensive\"\n\n2017-11-17 'P #essential\n  price: \"expensive\"\n  'P Assets:US:TD:Checking 22996.64 USD\n  'P Equity:Opening-Balances -22996.64 USD\n\n2017-11-18 balance Assets:US:TD:Checking 23954.04 USD #essential\n  price: \"expensive\"\n\n2022-01-30 open Expenses:Car NZD\n\n2022-01-30 open Expenses:Car:Fuel NZD\n\n2022-01-30 * \"Z Energy ;\" #car #petrol\n  Assets:Bank:Current -125.00 NZD\n  ofxid: \"0.12-3456-1234567-01.31May2023.3\"\n  Expenses:Car:Fuel 125.00 NZD\n\n2023-05-28 event \"planning\" \"Plan beers\" #exciting\n  accounted-in: Expenses:Groceries\n  budget: 127.50 NZD\n  date: 2023-05-27\n  drink: \"alcoholic\"\n  exciting: TRUE\n  foreigners: CAD\n  guests-expected: 150\n  linked-to: ^mylink\n  pre-dated: 2023-06-01\n  state: \"anticipation\"\n  tagged-with: #mytag\n  wahoo:\n\n2023-05-29 * \"New World Gardens North East Va ;\" #essential ^newworld.co.nz\n  price: \"expensive\"\n  Assets:Bank:Current -39.65 NZD\n  ofxid: \"0.12-3456-1234567-01.29May2023.1\"\n  Expenses:Groceries 39.65 NZD\n\n2023-05-29 pad Assets:Bank:Current Equity:Opening-Balances #fudge\n  evil: \"unseen\"\n\n2023-05-29 'P #fudge\n  evil: \"unseen\"\n  'P Assets:Bank:Current 1164.65 NZD\n  'P Equity:Opening-Balances -1164.65 NZD\n\n2023-05-30 balance Assets:Bank:Current 1000 NZD ~ 0.01 #richman\n\n2023-05-30 balance Expenses:Groceries 39.65 NZD\n  meals: \"cheap\"\n\n2023-05-31 * \"EMERSON S TAPROOM DUNEDIN ;\"\n  drink: \"alcoholic\"\n  Assets:Bank:Current -25.00 NZD\n  ofxid: \"0.12-3456-1234567-01.31May2023.3\"\n  Expenses:Entertainment:Drinks-and-snacks 25.00 NZD\n  #mytag1\n  ^mylink1\n  date: \"2023-05-30\"\n  just-use-a-tag: #mytag\n  key-for-link: ^mylink\n  open: \"for business\"\n  related_account: Expenses:Groceries\n\n2023-05-31 document Expenses:Entertainment:Drinks-and-snacks \"2023-05-31-emersons-receipt.png\" #beer\n  assessment: \"worth-it\"\n  drink: \"alcoholic\"\n\n2023-05-31 note Expenses:Entertainment:Drinks-and-snacks \"met with Mickey and Minnie\n  *  Pluto couldn't come,\n  ;  which made me sad.\n  \"\n  drink: \"alcoholic\"\n\n2023-05-31 'Z \"Z Energy ;\" \"Rather expensive\" #petrol\n  'B Assets:Bank:Current -130.00 NZD\n  ! Expenses:Car:Fuel 130.00 NZD\n\n2023-06-02 * \"Repco\" \"\"\n  Assets:Bank:Current -25.00 NZD\n  Expenses:Car 25.00 NZD\n\n2023-06-10 * \"Transfer\" #essential\n  price: \"expensive\"\n  Assets:Bank:Current -100.00 NZD\n  Assets:Bank:Savings 100.00 NZD\n\n2024-02-16 * \"Buying some IBM\"\n  Assets:US:ETrade:IBM 10 IBM {160.00 USD, 2024-02-16, \"first\nsecond\"}\n  Assets:US:ETrade:Cash -1609.95 USD\n  Expenses:Financial:Commissions 9.95 USD\n\n2024-03-01 close Assets:Bank:Current #seeya ^solong.and.thanks\n\n2025-01-01 query \"fictional SQL\" \"SELECT money FROM accounts;\" #for-testing\n  status: \"bogus\"\n\n2025-02-10 custom \"all the things!\" 10.50 USD \"anticipation\" CAD Expenses:Groceries #my-custom-tag ^my-custom-link 2023-06-01 TRUE 150\n  #i-am-a-meta-tag\n  ^i-am-a-meta-link\n  i-am-meta: \"yay!\"\n") = true := by decide +kernel

/-- test-cases/full.golden/raw-xf-directives.edn -/
def rawEdn : List Data := [
  .map [(str% "cur", .str (str% "NZD")), (str% "date", .date ⟨1970, 1, 1⟩), (str% "dct", .kw (str% "commodity")), (str% "links", .set [.str (str% "money.co.nz")]), (str% "span", .vec [.num ⟨0, 0⟩, .num ⟨278, 0⟩, .num ⟨413, 0⟩]), (str% "tags", .set [.str (str% "downunder")])],
  .map [(str% "acc", .str (str% "Assets:AccountsReceivable:Taxes")), (str% "currencies", .set [.str (str% "CAD"), .str (str% "USD")]), (str% "date", .date ⟨1972, 5, 28⟩), (str% "dct", .kw (str% "open")), (str% "span", .vec [.num ⟨0, 0⟩, .num ⟨528, 0⟩, .num ⟨588, 0⟩])],
  .map [(str% "acc", .str (str% "Assets:US:TD:Checking")), (str% "currencies", .set [.str (str% "USD")]), (str% "date", .date ⟨1972, 5, 28⟩), (str% "dct", .kw (str% "open")), (str% "span", .vec [.num ⟨0, 0⟩, .num ⟨588, 0⟩, .num ⟨631, 0⟩])],
  .map [(str% "acc", .str (str% "Equity:Opening-Balances")), (str% "date", .date ⟨1972, 5, 28⟩), (str% "dct", .kw (str% "open")), (str% "span", .vec [.num ⟨0, 0⟩, .num ⟨631, 0⟩, .num ⟨672, 0⟩])],
  .map [(str% "acc", .str (str% "Assets:US:ETrade:IBM")), (str% "date", .date ⟨2010, 3, 1⟩), (str% "dct", .kw (str% "open")), (str% "span", .vec [.num ⟨0, 0⟩, .num ⟨672, 0⟩, .num ⟨710, 0⟩])],
  .map [(str% "acc", .str (str% "Expenses:Financial:Commissions")), (str% "date", .date ⟨2010, 3, 1⟩), (str% "dct", .kw (str% "open")), (str% "span", .vec [.num ⟨0, 0⟩, .num ⟨710, 0⟩, .num ⟨758, 0⟩])],
  .map [(str% "acc", .str (str% "Assets:US:ETrade:Cash")), (str% "date", .date ⟨2010, 3, 1⟩), (str% "dct", .kw (str% "open")), (str% "span", .vec [.num ⟨0, 0⟩, .num ⟨758, 0⟩, .num ⟨797, 0⟩])],
  .map [(str% "date", .date ⟨2012, 1, 9⟩), (str% "dct", .kw (str% "txn")), (str% "flag", .str (str% "*")), (str% "metadata", .map [(str% "price", .map [(str% "string", .str (str% "expensive"))])]), (str% "narration", .str (str% "VISA DDA PUR 444500     WHOLEFDS -- VISA DDA PUR 444500     WHOLEFDS HOU 10236          NEW YORK      * NY")), (str% "postings", .vec []), (str% "span", .vec [.num ⟨0, 0⟩, .num ⟨1476, 0⟩, .num ⟨1599, 0⟩]), (str% "tags", .set [.str (str% "essential")])],
  .map [(str% "acc", .str (str% "Assets:CA:RBC-Investing:Taxable-CAD:Cash")), (str% "currencies", .set [.str (str% "CAD")]), (str% "date", .date ⟨2013, 1, 1⟩), (str% "dct", .kw (str% "open")), (str% "metadata", .map [(str% "price", .map [(str% "string", .str (str% "expensive"))])]), (str% "span", .vec [.num ⟨0, 0⟩, .num ⟨1599, 0⟩, .num ⟨1670, 0⟩]), (str% "tags", .set [.str (str% "essential")])],
  .map [(str% "date", .date ⟨2013, 1, 1⟩), (str% "dct", .kw (str% "txn")), (str% "flag", .str (str% "*")), (str% "links", .set [.str (str% "old-transactions-008")]), (str% "metadata", .map [(str% "price", .map [(str% "string", .str (str% "expensive"))])]), (str% "narration", .str (str% "Buy CRA shares")), (str% "postings", .vec [.map [(str% "acc", .str (str% "Assets:CA:RBC-Investing:Taxable-CAD:Cash")), (str% "cur", .str (str% "CAD")), (str% "price-spec", .map [(str% "cur", .str (str% "USD")), (str% "per-unit", .num ⟨6861, 4⟩)]), (str% "span", .vec [.num ⟨0, 0⟩, .num ⟨1724, 0⟩, .num ⟨1820, 0⟩]), (str% "units", .num ⟨-139543, 2⟩)], .map [(str% "acc", .str (str% "Assets:US:TD:Checking")), (str% "span", .vec [.num ⟨0, 0⟩, .num ⟨1823, 0⟩, .num ⟨1844, 0⟩])]]), (str% "span", .vec [.num ⟨0, 0⟩, .num ⟨1670, 0⟩, .num ⟨1846, 0⟩]), (str% "tags", .set [.str (str% "essential")])],
  .map [(str% "cur", .str (str% "HOOL")), (str% "date", .date ⟨2014, 7, 9⟩), (str% "dct", .kw (str% "price")), (str% "links", .set [.str (str% "cool.co")]), (str% "metadata", .map [(str% "heat", .map [(str% "string", .str (str% "on"))])]), (str% "price", .map [(str% "cur", .str (str% "USD")), (str% "per-unit", .num ⟨57918, 2⟩)]), (str% "span", .vec [.num ⟨0, 0⟩, .num ⟨413, 0⟩, .num ⟨528, 0⟩]), (str% "tags", .set [.str (str% "watcha")])],
  .map [(str% "acc", .str (str% "Assets:Bank:Savings")), (str% "date", .date ⟨2016, 3, 1⟩), (str% "dct", .kw (str% "open")), (str% "span", .vec [.num ⟨0, 0⟩, .num ⟨797, 0⟩, .num ⟨834, 0⟩])],
  .map [(str% "acc", .str (str% "Assets:Bank:Current")), (str% "currencies", .set [.str (str% "NZD")]), (str% "date", .date ⟨2016, 3, 1⟩), (str% "dct", .kw (str% "open")), (str% "links", .set [.str (str% "www.bank.com")]), (str% "span", .vec [.num ⟨0, 0⟩, .num ⟨834, 0⟩, .num ⟨927, 0⟩]), (str% "tags", .set [.str (str% "money")])],
  .map [(str% "acc", .str (str% "Expenses:Groceries")), (str% "booking", .kw (str% "fifo")), (str% "currencies", .set [.str (str% "NZD")]), (str% "date", .date ⟨2016, 3, 1⟩), (str% "dct", .kw (str% "open")), (str% "span", .vec [.num ⟨0, 0⟩, .num ⟨1095, 0⟩, .num ⟨1173, 0⟩])],
  .map [(str% "acc", .str (str% "Expenses:Entertainment:Drinks-and-snacks")), (str% "booking", .kw (str% "strict-with-size")), (str% "date", .date ⟨2016, 3, 1⟩), (str% "dct", .kw (str% "open")), (str% "span", .vec [.num ⟨0, 0⟩, .num ⟨1173, 0⟩, .num ⟨1281, 0⟩])],
  .map [(str% "acc", .str (str% "Assets:US:TD:Checking")), (str% "date", .date ⟨2017, 11, 17⟩), (str% "dct", .kw (str% "pad")), (str% "metadata", .map [(str% "price", .map [(str% "string", .str (str% "expensive"))])]), (str% "source", .str (str% "Equity:Opening-Balances")), (str% "span", .vec [.num ⟨0, 0⟩, .num ⟨1330, 0⟩, .num ⟨1391, 0⟩]), (str% "tags", .set [.str (str% "essential")])],
  .map [(str% "acc", .str (str% "Assets:US:TD:Checking")), (str% "cur", .str (str% "USD")), (str% "date", .date ⟨2017, 11, 18⟩), (str% "dct", .kw (str% "balance")), (str% "metadata", .map [(str% "price", .map [(str% "string", .str (str% "expensive"))])]), (str% "span", .vec [.num ⟨0, 0⟩, .num ⟨1391, 0⟩, .num ⟨1476, 0⟩]), (str% "tags", .set [.str (str% "essential")]), (str% "units", .num ⟨2395404, 2⟩)],
  .map [(str% "acc", .str (str% "Expenses:Car")), (str% "currencies", .set [.str (str% "NZD")]), (str% "date", .date ⟨2022, 1, 30⟩), (str% "dct", .kw (str% "open")), (str% "span", .vec [.num ⟨0, 0⟩, .num ⟨3612, 0⟩, .num ⟨3646, 0⟩])],
  .map [(str% "acc", .str (str% "Expenses:Car:Fuel")), (str% "currencies", .set [.str (str% "NZD")]), (str% "date", .date ⟨2022, 1, 30⟩), (str% "dct", .kw (str% "open")), (str% "span", .vec [.num ⟨0, 0⟩, .num ⟨3646, 0⟩, .num ⟨3685, 0⟩])],
  .map [(str% "date", .date ⟨2022, 1, 30⟩), (str% "dct", .kw (str% "txn")), (str% "flag", .str (str% "*")), (str% "narration", .str (str% "Z Energy ;")), (str% "postings", .vec [.map [(str% "acc", .str (str% "Assets:Bank:Current")), (str% "cur", .str (str% "NZD")), (str% "metadata", .map [(str% "ofxid", .map [(str% "string", .str (str% "0.12-3456-1234567-01.31May2023.3"))])]), (str% "span", .vec [.num ⟨0, 0⟩, .num ⟨3728, 0⟩, .num ⟨3809, 0⟩]), (str% "units", .num ⟨-12500, 2⟩)], .map [(str% "acc", .str (str% "Expenses:Car:Fuel")), (str% "span", .vec [.num ⟨0, 0⟩, .num ⟨3856, 0⟩, .num ⟨3873, 0⟩])]]), (str% "span", .vec [.num ⟨0, 0⟩, .num ⟨3685, 0⟩, .num ⟨3875, 0⟩]), (str% "tags", .set [.str (str% "car"), .str (str% "petrol")])],
  .map [(str% "date", .date ⟨2023, 5, 28⟩), (str% "dct", .kw (str% "event")), (str% "description", .str (str% "Plan beers")), (str% "metadata", .map [(str% "accounted-in", .map [(str% "acc", .str (str% "Expenses:Groceries"))]), (str% "budget", .map [(str% "cur", .str (str% "NZD")), (str% "units", .num ⟨12750, 2⟩)]), (str% "date", .map [(str% "date", .date ⟨2023, 5, 27⟩)]), (str% "drink", .map [(str% "string", .str (str% "alcoholic"))]), (str% "exciting", .map [(str% "bool", .bool true)]), (str% "foreigners", .map [(str% "cur", .str (str% "CAD"))]), (str% "guests-expected", .map [(str% "number", .num ⟨150, 0⟩)]), (str% "linked-to", .map [(str% "link", .str (str% "mylink"))]), (str% "pre-dated", .map [(str% "date", .date ⟨2023, 6, 1⟩)]), (str% "state", .map [(str% "string", .str (str% "anticipation"))]), (str% "tagged-with", .map [(str% "tag", .str (str% "mytag"))]), (str% "wahoo", .nil)]), (str% "span", .vec [.num ⟨0, 0⟩, .num ⟨3311, 0⟩, .num ⟨3596, 0⟩]), (str% "tags", .set [.str (str% "exciting")]), (str% "type", .str (str% "planning"))],
  .map [(str% "date", .date ⟨2023, 5, 29⟩), (str% "dct", .kw (str% "txn")), (str% "flag", .str (str% "*")), (str% "links", .set [.str (str% "newworld.co.nz")]), (str% "metadata", .map [(str% "price", .map [(str% "string", .str (str% "expensive"))])]), (str% "narration", .str (str% "New World Gardens North East Va ;")), (str% "postings", .vec [.map [(str% "acc", .str (str% "Assets:Bank:Current")), (str% "cur", .str (str% "NZD")), (str% "metadata", .map [(str% "ofxid", .map [(str% "string", .str (str% "0.12-3456-1234567-01.29May2023.1"))])]), (str% "span", .vec [.num ⟨0, 0⟩, .num ⟨1913, 0⟩, .num ⟨1969, 0⟩]), (str% "units", .num ⟨-3965, 2⟩)], .map [(str% "acc", .str (str% "Expenses:Groceries")), (str% "span", .vec [.num ⟨0, 0⟩, .num ⟨2040, 0⟩, .num ⟨2058, 0⟩])]]), (str% "span", .vec [.num ⟨0, 0⟩, .num ⟨1846, 0⟩, .num ⟨2060, 0⟩]), (str% "tags", .set [.str (str% "essential")])],
  .map [(str% "acc", .str (str% "Assets:Bank:Current")), (str% "date", .date ⟨2023, 5, 29⟩), (str% "dct", .kw (str% "pad")), (str% "metadata", .map [(str% "evil", .map [(str% "string", .str (str% "unseen"))])]), (str% "source", .str (str% "Equity:Opening-Balances")), (str% "span", .vec [.num ⟨0, 0⟩, .num ⟨2226, 0⟩, .num ⟨2310, 0⟩]), (str% "tags", .set [.str (str% "fudge")])],
  .map [(str% "acc", .str (str% "Assets:Bank:Current")), (str% "cur", .str (str% "NZD")), (str% "date", .date ⟨2023, 5, 30⟩), (str% "dct", .kw (str% "balance")), (str% "span", .vec [.num ⟨0, 0⟩, .num ⟨2310, 0⟩, .num ⟨2404, 0⟩]), (str% "tags", .set [.str (str% "richman")]), (str% "tolerance", .num ⟨1, 2⟩), (str% "units", .num ⟨1000, 0⟩)],
  .map [(str% "acc", .str (str% "Expenses:Groceries")), (str% "cur", .str (str% "NZD")), (str% "date", .date ⟨2023, 5, 30⟩), (str% "dct", .kw (str% "balance")), (str% "metadata", .map [(str% "meals", .map [(str% "string", .str (str% "cheap"))])]), (str% "span", .vec [.num ⟨0, 0⟩, .num ⟨2404, 0⟩, .num ⟨2506, 0⟩]), (str% "units", .num ⟨3965, 2⟩)],
  .map [(str% "date", .date ⟨2023, 5, 31⟩), (str% "dct", .kw (str% "txn")), (str% "flag", .str (str% "*")), (str% "metadata", .map [(str% "drink", .map [(str% "string", .str (str% "alcoholic"))])]), (str% "narration", .str (str% "EMERSON S TAPROOM DUNEDIN ;")), (str% "postings", .vec [.map [(str% "acc", .str (str% "Assets:Bank:Current")), (str% "cur", .str (str% "NZD")), (str% "metadata", .map [(str% "ofxid", .map [(str% "string", .str (str% "0.12-3456-1234567-01.31May2023.3"))])]), (str% "span", .vec [.num ⟨0, 0⟩, .num ⟨2601, 0⟩, .num ⟨2682, 0⟩]), (str% "units", .num ⟨-2500, 2⟩)], .map [(str% "acc", .str (str% "Expenses:Entertainment:Drinks-and-snacks")), (str% "links", .set [.str (str% "mylink1")]), (str% "metadata", .map [(str% "date", .map [(str% "string", .str (str% "2023-05-30"))]), (str% "just-use-a-tag", .map [(str% "tag", .str (str% "mytag"))]), (str% "key-for-link", .map [(str% "link", .str (str% "mylink"))]), (str% "open", .map [(str% "string", .str (str% "for business"))]), (str% "related_account", .map [(str% "acc", .str (str% "Expenses:Groceries"))])]), (str% "span", .vec [.num ⟨0, 0⟩, .num ⟨2729, 0⟩, .num ⟨2769, 0⟩]), (str% "tags", .set [.str (str% "mytag1")])]]), (str% "span", .vec [.num ⟨0, 0⟩, .num ⟨2535, 0⟩, .num ⟨3044, 0⟩])],
  .map [(str% "acc", .str (str% "Expenses:Entertainment:Drinks-and-snacks")), (str% "date", .date ⟨2023, 5, 31⟩), (str% "dct", .kw (str% "document")), (str% "metadata", .map [(str% "assessment", .map [(str% "string", .str (str% "worth-it"))]), (str% "drink", .map [(str% "string", .str (str% "alcoholic"))])]), (str% "path", .str (str% "2023-05-31-emersons-receipt.png")), (str% "span", .vec [.num ⟨0, 0⟩, .num ⟨3044, 0⟩, .num ⟨3171, 0⟩]), (str% "tags", .set [.str (str% "beer")])],
  .map [(str% "acc", .str (str% "Expenses:Entertainment:Drinks-and-snacks")), (str% "comment", .str (str% "met with Mickey and Minnie\n  *  Pluto couldn't come,\n  ;  which made me sad.\n  ")), (str% "date", .date ⟨2023, 5, 31⟩), (str% "dct", .kw (str% "note")), (str% "metadata", .map [(str% "drink", .map [(str% "string", .str (str% "alcoholic"))])]), (str% "span", .vec [.num ⟨0, 0⟩, .num ⟨3171, 0⟩, .num ⟨3311, 0⟩])],
  .map [(str% "date", .date ⟨2023, 5, 31⟩), (str% "dct", .kw (str% "txn")), (str% "flag", .str (str% "'Z")), (str% "narration", .str (str% "Rather expensive")), (str% "payee", .str (str% "Z Energy ;")), (str% "postings", .vec [.map [(str% "acc", .str (str% "Assets:Bank:Current")), (str% "cur", .str (str% "NZD")), (str% "flag", .str (str% "'B")), (str% "span", .vec [.num ⟨0, 0⟩, .num ⟨3931, 0⟩, .num ⟨3991, 0⟩]), (str% "units", .num ⟨-13000, 2⟩)], .map [(str% "acc", .str (str% "Expenses:Car:Fuel")), (str% "flag", .str (str% "!")), (str% "span", .vec [.num ⟨0, 0⟩, .num ⟨3994, 0⟩, .num ⟨4013, 0⟩])]]), (str% "span", .vec [.num ⟨0, 0⟩, .num ⟨3875, 0⟩, .num ⟨4015, 0⟩]), (str% "tags", .set [.str (str% "petrol")])],
  .map [(str% "date", .date ⟨2023, 6, 2⟩), (str% "dct", .kw (str% "txn")), (str% "flag", .str (str% "*")), (str% "payee", .str (str% "Repco")), (str% "postings", .vec [.map [(str% "acc", .str (str% "Assets:Bank:Current")), (str% "cur", .str (str% "NZD")), (str% "span", .vec [.num ⟨0, 0⟩, .num ⟨4041, 0⟩, .num ⟨4122, 0⟩]), (str% "units", .num ⟨-2500, 2⟩)], .map [(str% "acc", .str (str% "Expenses:Car")), (str% "span", .vec [.num ⟨0, 0⟩, .num ⟨4125, 0⟩, .num ⟨4137, 0⟩])]]), (str% "span", .vec [.num ⟨0, 0⟩, .num ⟨4015, 0⟩, .num ⟨4139, 0⟩])],
  .map [(str% "date", .date ⟨2023, 6, 10⟩), (str% "dct", .kw (str% "txn")), (str% "flag", .str (str% "*")), (str% "metadata", .map [(str% "price", .map [(str% "string", .str (str% "expensive"))])]), (str% "narration", .str (str% "Transfer")), (str% "postings", .vec [.map [(str% "acc", .str (str% "Assets:Bank:Current")), (str% "cur", .str (str% "NZD")), (str% "span", .vec [.num ⟨0, 0⟩, .num ⟨2086, 0⟩, .num ⟨2167, 0⟩]), (str% "units", .num ⟨-10000, 2⟩)], .map [(str% "acc", .str (str% "Assets:Bank:Savings")), (str% "span", .vec [.num ⟨0, 0⟩, .num ⟨2170, 0⟩, .num ⟨2189, 0⟩])]]), (str% "span", .vec [.num ⟨0, 0⟩, .num ⟨2060, 0⟩, .num ⟨2191, 0⟩]), (str% "tags", .set [.str (str% "essential")])],
  .map [(str% "date", .date ⟨2024, 2, 16⟩), (str% "dct", .kw (str% "txn")), (str% "flag", .str (str% "*")), (str% "narration", .str (str% "Buying some IBM")), (str% "postings", .vec [.map [(str% "acc", .str (str% "Assets:US:ETrade:IBM")), (str% "cost-spec", .map [(str% "cur", .str (str% "USD")), (str% "label", .str (str% "first\nsecond")), (str% "per-unit", .num ⟨16000, 2⟩)]), (str% "cur", .str (str% "IBM")), (str% "span", .vec [.num ⟨0, 0⟩, .num ⟨4172, 0⟩, .num ⟨4283, 0⟩]), (str% "units", .num ⟨10, 0⟩)], .map [(str% "acc", .str (str% "Assets:US:ETrade:Cash")), (str% "span", .vec [.num ⟨0, 0⟩, .num ⟨4286, 0⟩, .num ⟨4307, 0⟩])], .map [(str% "acc", .str (str% "Expenses:Financial:Commissions")), (str% "cur", .str (str% "USD")), (str% "span", .vec [.num ⟨0, 0⟩, .num ⟨4310, 0⟩, .num ⟨4391, 0⟩]), (str% "units", .num ⟨995, 2⟩)]]), (str% "span", .vec [.num ⟨0, 0⟩, .num ⟨4139, 0⟩, .num ⟨4393, 0⟩])],
  .map [(str% "acc", .str (str% "Assets:Bank:Current")), (str% "date", .date ⟨2024, 3, 1⟩), (str% "dct", .kw (str% "close")), (str% "links", .set [.str (str% "solong.and.thanks")]), (str% "span", .vec [.num ⟨0, 0⟩, .num ⟨927, 0⟩, .num ⟨1095, 0⟩]), (str% "tags", .set [.str (str% "seeya")])],
  .map [(str% "content", .str (str% "SELECT money FROM accounts;")), (str% "date", .date ⟨2025, 1, 1⟩), (str% "dct", .kw (str% "query")), (str% "metadata", .map [(str% "status", .map [(str% "string", .str (str% "bogus"))])]), (str% "name", .str (str% "fictional SQL")), (str% "span", .vec [.num ⟨0, 0⟩, .num ⟨4393, 0⟩, .num ⟨4488, 0⟩]), (str% "tags", .set [.str (str% "for-testing")])],
  .map [(str% "date", .date ⟨2025, 2, 10⟩), (str% "dct", .kw (str% "custom")), (str% "links", .set [.str (str% "i-am-a-meta-link")]), (str% "metadata", .map [(str% "i-am-meta", .map [(str% "string", .str (str% "yay!"))])]), (str% "span", .vec [.num ⟨0, 0⟩, .num ⟨4488, 0⟩, .num ⟨4682, 0⟩]), (str% "tags", .set [.str (str% "i-am-a-meta-tag")]), (str% "type", .str (str% "all the things!")), (str% "values", .vec [.map [(str% "cur", .str (str% "USD")), (str% "units", .num ⟨1050, 2⟩)], .map [(str% "string", .str (str% "anticipation"))], .map [(str% "cur", .str (str% "CAD"))], .map [(str% "acc", .str (str% "Expenses:Groceries"))], .map [(str% "tag", .str (str% "my-custom-tag"))], .map [(str% "link", .str (str% "my-custom-link"))], .map [(str% "date", .date ⟨2023, 6, 1⟩)], .map [(str% "bool", .bool true)], .map [(str% "number", .num ⟨150, 0⟩)]])]]

example : rawAre result rawEdn = true := by decide +kernel

/-- test-cases/full.golden/raw-xf-directives.fyi.beancount -/
example : textIs rawEdn
    (str% "1970-01-01 commodity NZD #downunder ^money.co.nz\n\n1972-05-28 open Assets:AccountsReceivable:Taxes CAD,USD\n\n1972-05-28 open Assets:US:TD:Checking USD\n\n1972-05-28 open Equity:Opening-Balances\n\n2010-03-01 open Assets:US:ETrade:IBM\n\n2010-03-01 open Expenses:Financial:Commissions\n\n2010-03-01 open Assets:US:ETrade:Cash\n\n2012-01-09 * \"VISA DDA PUR 444500     WHOLEFDS -- VISA DDA PUR 444500     WHOLEFDS HOU 10236          NEW YORK      * NY\" #essential\n  price: \"expensive\"\n\n2013-01-01 open Assets:CA:RBC-Investing:Taxable-CAD:Cash CAD #essential\n  price: \"expensive\"\n\n2013-01-01 * \"Buy CRA shares\" #essential ^old-transactions-008\n  price: \"expensive\"\n  Assets:CA:RBC-Investing:Taxable-CAD:Cash -1395.43 CAD @ 0.6861 USD\n  Assets:US:TD:Checking\n\n2014-07-09 price HOOL 579.18 USD #watcha ^cool.co\n  heat: \"on\"\n\n2016-03-01 open Assets:Bank:Savings\n\n2016-03-01 open Assets:Bank:Current NZD #money ^www.bank.com\n\n2016-03-01 open Expenses:Groceries NZD \"FIFO\"\n\n2016-03-01 open Expenses:Entertainment:Drinks-and-snacks \"STRICT_WITH_SIZE\"\n\n2017-11-17 pad Assets:US:TD:Checking Equity:Opening-Balances #essential\n  price: \"expensive\"\n\n2017-11-18 balance Assets:US:TD:Checking 23954.04 USD #essential\n  price: \"expensive\"\n\n2022-01-30 open Expenses:Car NZD\n\n2022-01-30 open Expenses:Car:Fuel NZD\n\n2022-01-30 * \"Z Energy ;\" #car #petrol\n  Assets:Bank:Current -125.00 NZD\n  ofxid: \"0.12-3456-1234567-01.31May2023.3\"\n  Expenses:Car:Fuel\n\n2023-05-28 event \"planning\" \"Plan beers\" #exciting\n  accounted-in: Expenses:Groceries\n  budget: 127.50 NZD\n  date: 2023-05-27\n  drink: \"alcoholic\"\n  exciting: TRUE\n  foreigners: CAD\n  guests-expected: 150\n  linked-to: ^mylink\n  pre-dated: 2023-06-01\n  state: \"anticipation\"\n  tagged-with: #mytag\n  wahoo:\n\n2023-05-29 * \"New World Gardens North East Va ;\" #essential ^newworld.co.nz\n  price: \"expensive\"\n  Assets:Bank:Current -39.65 NZD\n  ofxid: \"0.12-3456-1234567-01.29May2023.1\"\n  Expenses:Groceries\n\n2023-05-29 pad Assets:Bank:Current Equity:Opening-Balances #fudge\n  evil: \"unseen\"\n\n2023-05-30 balance Assets:Bank:Current 1000 NZD ~ 0.01 #richman\n\n2023-05-30 balance Expenses:Groceries 39.65 NZD\n  meals: \"cheap\"\n\n2023-05-31 * \"EMERSON S TAPROOM DUNEDIN ;\"\n  drink: \"alcoholic\"\n  Assets:Bank:Current -25.00 NZD\n  ofxid: \"0.12-3456-1234567-01.31May2023.3\"\n  Expenses:Entertainment:Drinks-and-snacks\n  #mytag1\n  ^mylink1\n  date: \"2023-05-30\"\n  just-use-a-tag: #mytag\n  key-for-link: ^mylink\n  open: \"for business\"\n  related_account: Expenses:Groceries\n\n2023-05-31 document Expenses:Entertainment:Drinks-and-snacks \"2023-05-31-emersons-receipt.png\" #beer\n  assessment: \"worth-it\"\n  drink: \"alcoholic\"\n\n2023-05-31 note Expenses:Entertainment:Drinks-and-snacks \"met with Mickey and Minnie\n  *  Pluto couldn't come,\n  ;  which made me sad.\n  \"\n  drink: \"alcoholic\"\n\n2023-05-31 'Z \"Z Energy ;\" \"Rather expensive\" #petrol\n  'B Assets:Bank:Current -130.00 NZD\n  ! Expenses:Car:Fuel\n\n2023-06-02 * \"Repco\" \"\"\n  Assets:Bank:Current -25.00 NZD\n  Expenses:Car\n\n2023-06-10 * \"Transfer\" #essential\n  price: \"expensive\"\n  Assets:Bank:Current -100.00 NZD\n  Assets:Bank:Savings\n\n2024-02-16 * \"Buying some IBM\"\n  Assets:US:ETrade:IBM 10 IBM {160.00 USD, \"first\nsecond\"}\n  Assets:US:ETrade:Cash\n  Expenses:Financial:Commissions 9.95 USD\n\n2024-03-01 close Assets:Bank:Current #seeya ^solong.and.thanks\n\n2025-01-01 query \"fictional SQL\" \"SELECT money FROM accounts;\" #for-testing\n  status: \"bogus\"\n\n2025-02-10 custom \"all the things!\" 10.50 USD \"anticipation\" CAD Expenses:Groceries #my-custom-tag ^my-custom-link 2023-06-01 TRUE 150\n  #i-am-a-meta-tag\n  ^i-am-a-meta-link\n  i-am-meta: \"yay!\"\n") = true := by decide +kernel

/-- test-cases/full.golden/inventory -/
example : inventoryIs result
    (str% "Assets:Bank:Current 720.00 NZD \nAssets:Bank:Savings 100.00 NZD \nAssets:CA:RBC-Investing:Taxable-CAD:Cash -1395.43 CAD \nAssets:US:ETrade:Cash -1609.95 USD \nAssets:US:ETrade:IBM 10 IBM 2024-02-16 USD 160.00 first\nsecond \nAssets:US:TD:Checking 23954.04 USD \nEquity:Opening-Balances -1164.65 NZD \n -22996.64 USD \nExpenses:Car 25.00 NZD \nExpenses:Car:Fuel 255.00 NZD \nExpenses:Entertainment:Drinks-and-snacks 25.00 NZD \nExpenses:Financial:Commissions 9.95 USD \nExpenses:Groceries 39.65 NZD \n") = true := by decide +kernel

/-- test-cases/full.golden/rollup -/
example : rollupIs result
    (str% "Assets 820.00 \nAssets:Bank 820.00 \nAssets:Bank:Current 720.00\nAssets:Bank:Savings 100.00\nEquity -1164.65 \nEquity:Opening-Balances -1164.65\nExpenses 344.65 \nExpenses:Car 280.00 25.00\nExpenses:Car:Fuel 255.00\nExpenses:Entertainment 25.00 \nExpenses:Entertainment:Drinks-and-snacks 25.00\nExpenses:Groceries 39.65\n") = true := by decide +kernel

/-- test-cases/full.golden/journal -/
example : journalIs result
    (str% "2013-01-01 Assets:CA:RBC-Investing:Taxable-CAD:Cash Buy CRA shares -1395.43 CAD -1395.43 CAD\n2013-01-01 Assets:US:TD:Checking Buy CRA shares 957.40 USD -1395.43 CAD\n 957.40 USD\n2017-11-17 Assets:US:TD:Checking 'P 22996.64 USD -1395.43 CAD\n 23954.04 USD\n2017-11-17 Equity:Opening-Balances 'P -22996.64 USD -1395.43 CAD\n 957.40 USD\n2022-01-30 Assets:Bank:Current Z Energy ; -125.00 NZD -1395.43 CAD\n -125.00 NZD\n 957.40 USD\n2022-01-30 Expenses:Car:Fuel Z Energy ; 125.00 NZD -1395.43 CAD\n 957.40 USD\n2023-05-29 Assets:Bank:Current New World Gardens North East Va ; -39.65 NZD -1395.43 CAD\n -39.65 NZD\n 957.40 USD\n2023-05-29 Expenses:Groceries New World Gardens North East Va ; 39.65 NZD -1395.43 CAD\n 957.40 USD\n2023-05-29 Assets:Bank:Current 'P 1164.65 NZD -1395.43 CAD\n 1164.65 NZD\n 957.40 USD\n2023-05-29 Equity:Opening-Balances 'P -1164.65 NZD -1395.43 CAD\n 957.40 USD\n2023-05-31 Assets:Bank:Current EMERSON S TAPROOM DUNEDIN ; -25.00 NZD -1395.43 CAD\n -25.00 NZD\n 957.40 USD\n2023-05-31 Expenses:Entertainment:Drinks-and-snacks EMERSON S TAPROOM DUNEDIN ; 25.00 NZD -1395.43 CAD\n 957.40 USD\n2023-05-31 Assets:Bank:Current Z Energy ; Rather expensive 'B -130.00 NZD -1395.43 CAD\n -130.00 NZD\n 957.40 USD\n2023-05-31 Expenses:Car:Fuel Z Energy ; Rather expensive ! 130.00 NZD -1395.43 CAD\n 957.40 USD\n2023-06-02 Assets:Bank:Current Repco -25.00 NZD -1395.43 CAD\n -25.00 NZD\n 957.40 USD\n2023-06-02 Expenses:Car Repco 25.00 NZD -1395.43 CAD\n 957.40 USD\n2023-06-10 Assets:Bank:Current Transfer -100.00 NZD -1395.43 CAD\n -100.00 NZD\n 957.40 USD\n2023-06-10 Assets:Bank:Savings Transfer 100.00 NZD -1395.43 CAD\n 957.40 USD\n2024-02-16 Assets:US:ETrade:IBM Buying some IBM 10 IBM -1395.43 CAD\n 10 IBM\n 957.40 USD\n2024-02-16 Assets:US:ETrade:Cash Buying some IBM -1609.95 USD -1395.43 CAD\n 10 IBM\n -652.55 USD\n2024-02-16 Expenses:Financial:Commissions Buying some IBM 9.95 USD -1395.43 CAD\n 10 IBM\n -642.60 USD\n") = true := by decide +kernel

end Full
end Recorded
end Limabean
