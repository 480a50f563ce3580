/-
The arguments of the date filters: clj/src/limabean/core/filters.clj:13-77; and the filter of financial years which is given as an
example, examples/clj/user.clj.

Only the forms of arguments which are documented are modelled. `jt/local-date` has others: without argument it is the present day,
and a text may be read by a format. Years before 0, and text with years beyond 9999, are not modelled.
-/
import Verif.Clj.Filters
import Verif.Server.Wire

namespace Limabean
namespace Clj

/-- An argument: clj/src/limabean/core/filters.clj:28-34. -/
inductive DateArg where
  | num (n : Nat)
  | text (s : Str)
  | date (d : Date)
deriving DecidableEq, Repr

/-- `LocalDate.of`: an exception if there is no such day. -/
def localDateOf (y m d : Nat) : Option Date :=
  if y ≤ 999999999 ∧ 1 ≤ m ∧ m ≤ 12 ∧ 1 ≤ d ∧ d ≤ Wire.monthDays y m then some ⟨y, m, d⟩ else none

/-- `to-local-date`: clj/src/limabean/core/filters.clj:13-23; `none` is the exception. -/
def toLocalDate : List DateArg → Option Date
  | [.date d] => some d
  | [.text s] => Wire.parseDate s
  | [.num y] => localDateOf y 1 1
  | [.num y, .num m] => localDateOf y m 1
  | [.num y, .num m, .num d] => localDateOf y m d
  | _ => none

/-- `date<`: clj/src/limabean/core/filters.clj:25-37. -/
def dateLtArgs (args : List DateArg) : Option Filter := (toLocalDate args).map dateLt

/-- `date<=`: clj/src/limabean/core/filters.clj:39-45. -/
def dateLeArgs (args : List DateArg) : Option Filter := (toLocalDate args).map dateLe

/-- `date>`: clj/src/limabean/core/filters.clj:47-53. -/
def dateGtArgs (args : List DateArg) : Option Filter := (toLocalDate args).map dateGt

/-- `date>=`: clj/src/limabean/core/filters.clj:55-61. -/
def dateGeArgs (args : List DateArg) : Option Filter := (toLocalDate args).map dateGe

/-- `date>=<`: clj/src/limabean/core/filters.clj:63-77; any other number of arguments is an exception. -/
def dateGeLtArgs : List DateArg → Option Filter
  | [b1, e1] => do some (dateGeLt (← toLocalDate [b1]) (← toLocalDate [e1]))
  | [b1, b2, e1, e2] => do some (dateGeLt (← toLocalDate [b1, b2]) (← toLocalDate [e1, e2]))
  | [b1, b2, b3, e1, e2, e3] => do some (dateGeLt (← toLocalDate [b1, b2, b3]) (← toLocalDate [e1, e2, e3]))
  | _ => none

/-- `fy`: examples/clj/user.clj:4-13. -/
def fy (year : Nat) : Option Filter :=
  let year := if year < 100 then 2000 + year else year
  dateGeLtArgs [.num year, .num 4, .num 1, .num (year + 1), .num 4, .num 1]

end Clj
end Limabean
