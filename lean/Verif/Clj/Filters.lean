/-
Filters and transducers: clj/src/limabean/core/filters.clj, clj/src/limabean/core/xf.clj.

A filter is a predicate on a map. The maps to which they are applied are directives and the rows which `xf/postings` makes of
postings; the fields which filters read are given by `Fields`, where `none` is a missing field. The arguments of the date
filters are given as dates here (`to-local-date` is in Clj/DateArgs.lean), a regular expression by the predicate whether it has a match.
-/
import Verif.Clj.Order
import Verif.Basic.Str

namespace Limabean
namespace Clj

/-- The fields `:date`, `:acc`, `:cur`, `:payee` and `:narration` of a map. -/
structure Fields where
  date : Option Date := none
  acc : Option Str := none
  cur : Option Str := none
  payee : Option Str := none
  narration : Option Str := none
deriving DecidableEq, Repr

/-- A filter, up to truthiness of its result. -/
abbrev Filter := Fields → Bool

/-- `jt/before?`. -/
def before (a b : Date) : Bool := cmpDate a b == .lt

/-- `date<`: clj/src/limabean/core/filters.clj:25-37. -/
def dateLt (e : Date) : Filter := fun x => match x.date with
  | some d => before d e
  | none => false

/-- `date<=`: clj/src/limabean/core/filters.clj:39-45. -/
def dateLe (e : Date) : Filter := fun x => match x.date with
  | some d => !before e d
  | none => false

/-- `date>`: clj/src/limabean/core/filters.clj:47-53. -/
def dateGt (b : Date) : Filter := fun x => match x.date with
  | some d => before b d
  | none => false

/-- `date>=`: clj/src/limabean/core/filters.clj:55-61. -/
def dateGe (b : Date) : Filter := fun x => match x.date with
  | some d => !before d b
  | none => false

/-- `date>=<`: clj/src/limabean/core/filters.clj:63-77. -/
def dateGeLt (b e : Date) : Filter := fun x => match x.date with
  | some d => !before d b && before d e
  | none => false

/-- `acc`: clj/src/limabean/core/filters.clj:79-82. -/
def accIn (targets : List Str) : Filter := fun x => match x.acc with
  | some a => targets.contains a
  | none => false

/-- `str/starts-with?`. -/
def startsWith (s pre : Str) : Bool := pre.isPrefixOf s

/-- `sub-acc`: clj/src/limabean/core/filters.clj:84-92. -/
def subAcc (targets : List Str) : Filter := fun x => match x.acc with
  | some a => targets.any fun t => a == t || startsWith a (t ++ str% ":")
  | none => false

/-- `cur`: clj/src/limabean/core/filters.clj:94-97. -/
def curIs (target : Str) : Filter := fun x => match x.cur with
  | some c => c == target
  | none => false

/-- `payee-match`: clj/src/limabean/core/filters.clj:99-107. -/
def payeeMatch (matched : Str → Bool) : Filter := fun x => match x.payee with
  | some p => matched p
  | none => false

/-- `narration-match`: clj/src/limabean/core/filters.clj:99-102, 109-112. -/
def narrationMatch (matched : Str → Bool) : Filter := fun x => match x.narration with
  | some n => matched n
  | none => false

/-- `every-f`: clj/src/limabean/core/filters.clj:114-117. -/
def everyF (fs : List Filter) : Filter := fun x => fs.all fun f => f x

/-- `some-f`: clj/src/limabean/core/filters.clj:119-122. -/
def someF (fs : List Filter) : Filter := fun x => fs.any fun f => f x

/-- `none-f`: clj/src/limabean/core/filters.clj:124-127. -/
def noneF (fs : List Filter) : Filter := fun x => !fs.any fun f => f x

/-- The fields of a booked directive, as named by rust/src/api/types/booked.rs:13-62, 134-147 and
rust/src/api/types/raw.rs:46-159. -/
def directiveFields (d : Booked.Directive) : Fields :=
  match d.variant with
  | .transaction t => { date := some d.date, payee := t.payee, narration := t.narration }
  | .price p => { date := some d.date, cur := some p.cur }
  | .balance b => { date := some d.date, acc := some b.raw.acc, cur := some b.raw.cur }
  | .opn o => { date := some d.date, acc := some o.acc }
  | .close c => { date := some d.date, acc := some c.acc }
  | .commodity c => { date := some d.date, cur := some c.cur }
  | .pad p => { date := some d.date, acc := some p.acc }
  | .document x => { date := some d.date, acc := some x.acc }
  | .note n => { date := some d.date, acc := some n.acc }
  | .event _ => { date := some d.date }
  | .query _ => { date := some d.date }
  | .custom _ => { date := some d.date }

/-- A posting merged with fields of its transaction: clj/src/limabean/core/xf.clj:13-14. -/
structure Row where
  date : Date
  payee : Option Str := none
  narration : Option Str := none
  posting : Booked.Posting
deriving DecidableEq, Repr

/-- The fields of a row. -/
def Row.fields (r : Row) : Fields :=
  { date := some r.date, acc := some r.posting.acc, cur := some r.posting.cur, payee := r.payee, narration := r.narration }

/-- `postings`: clj/src/limabean/core/xf.clj:8-14. -/
def postingRows (ds : List Booked.Directive) : List Row :=
  ds.flatMap fun d => match d.variant with
    | .transaction t => t.postings.map fun p =>
        { date := d.date, payee := t.payee, narration := t.narration, posting := p }
    | _ => []

/-- `all-of`: clj/src/limabean/core/xf.clj:3-6; `fields` gives the fields of an element. -/
def allOf {α : Type} (fields : α → Fields) (fs : List Filter) (l : List α) : List α :=
  if fs.isEmpty then l else l.filter fun x => fs.all fun f => f (fields x)

end Clj
end Limabean
