/-
The plugin auto_accounts: clj/src/beancount/plugins/auto_accounts.clj.

The step function calls the next reducing function for each new account and then drops the result of these calls (lines 27-34);
it continues with the previous result. Under `into []`, which is how plugins are run (clj/src/limabean/adapter/plugins.clj:107),
the result is a transient vector, whose `conj!` changes the vector in place and returns it, so that the calls count
nevertheless. `Sink` covers both kinds of reducing function.
-/
import Verif.Clj.Order

namespace Limabean
namespace Clj

/-- The directive which the plugin creates: lines 29-32. -/
def autoOpen (date : Date) (acc : Str) : Raw.Directive :=
  { date := date, metadata := some [(str% "auto", .null)], variant := .opn { acc := acc } }

/-- A reducing function: either it changes the result in place, like `conj!`, or it returns a new one, like `conj`. -/
inductive Sink
  | inPlace
  | persistent
deriving DecidableEq

/-- The accounts of the postings which are not yet opened, without duplicates, in order: lines 20-22. -/
def newAccounts (opened : List Str) (t : Raw.Transaction) : List Str :=
  sortBy cmpStr ((t.postings.map (·.acc)).dedup.filter fun a => !opened.contains a)

/-- The step: lines 15-36. The state is the set of opened accounts and the result. -/
def autoStep (sink : Sink) (s : List Str × List Raw.Directive) (d : Raw.Directive) : List Str × List Raw.Directive :=
  match d.variant with
  | .opn o => (s.1 ++ [o.acc], s.2 ++ [d])
  | .transaction t =>
    let new := newAccounts s.1 t
    let opens := new.map (autoOpen d.date)
    let result := match sink with
      | .inPlace => s.2 ++ opens
      | .persistent => s.2
    (s.1 ++ new, result ++ [d])
  | _ => (s.1, s.2 ++ [d])

/-- The plugin over a list of directives: lines 4-36. -/
def autoAccounts (sink : Sink) (ds : List Raw.Directive) : List Raw.Directive := (ds.foldl (autoStep sink) ([], [])).2

end Clj
end Limabean
