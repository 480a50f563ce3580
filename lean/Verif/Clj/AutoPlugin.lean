/-
The plugin auto_accounts as the front end runs it, on Clojure data: clj/src/beancount/plugins/auto_accounts.clj.

The volatile `opened-accounts` is a function of the directives received so far. The calls of `rf` whose results the plugin drops count
nevertheless (see Clj/AutoAccounts.lean). Simplified: accounts which are not strings are left out; a parsed directive has none.
-/
import Verif.Clj.AutoAccounts
import Verif.Clj.Plugins
import Verif.Clj.Spans

namespace Limabean
namespace Clj

/-- A string, if it is one. -/
def strings : Data → List Str
  | .str s => [s]
  | _ => []

/-- The accounts of the postings which are not yet opened, without duplicates, in order: lines 20-22. -/
def newAccountsOf (opened : List Str) (d : Data) : List Str :=
  if isKw (d.get (str% "dct")) (str% "txn") then
    sortBy cmpStr ((((d.get (str% "postings")).elems.flatMap fun p => strings (p.get (str% "acc"))).dedup).filter fun a => !opened.contains a)
  else []

/-- The volatile after a directive: lines 16-18 and 24-25. -/
def openedAfter (opened : List Str) (d : Data) : List Str :=
  if isKw (d.get (str% "dct")) (str% "open") then opened ++ strings (d.get (str% "acc")) else opened ++ newAccountsOf opened d

/-- The volatile after some directives. -/
def openedBy (l : List Data) : List Str := l.foldl openedAfter []

/-- The directive which the plugin creates: lines 28-31. -/
def autoOpenData (date : Data) (acc : Str) : Data :=
  .map [(str% "dct", .kw (str% "open")), (str% "date", date), (str% "acc", .str acc), (str% "metadata", .map [(str% "auto", .nil)])]

/-- `raw-xf`: lines 4-36. -/
def autoPlugin : Plugin where
  name := []
  step l := match l.getLast? with
    | none => []
    | some d => ((newAccountsOf (openedBy l.dropLast) d).map fun a => .new (autoOpenData (d.get (str% "date")) a)) ++ [.old (l.length - 1)]
  finish _ := []

end Clj
end Limabean
