/-
What the books add up to.
-/
import Verif.Spec.Rollup
import Verif.Clj.Filters

namespace Limabean
namespace Spec

/-- The units of a posting if they are in the currency, else nothing. -/
def unitsIn (cur : Str) (p : Booked.Posting) : ℚ := if p.cur = cur then p.units.val else 0

/-- What a posting counts for when a transaction is balanced: at cost, without a cost at its price, without either its units. -/
def weightIn (cur : Str) (p : Booked.Posting) : ℚ :=
  match p.cost, p.price with
  | some c, _ => if c.cur = cur then p.units.val * c.perUnit.val else 0
  | none, some x => if x.cur = cur then p.units.val * x.perUnit.val else 0
  | none, none => unitsIn cur p

/-- What all postings of some directives add up to, each counted by `f`. -/
def amount (f : Booked.Posting → ℚ) (ds : List Booked.Directive) : ℚ := ((postings ds).map f).sum

/-- Is it a transaction? -/
def isTransaction (raw : Raw.Directive) : Bool :=
  match raw.variant with
  | .transaction _ => true
  | _ => false

/-- The booked directive is made from a transaction of the ledger `ds`, not from a pad. -/
def IsWritten (ds : List Raw.Directive) (d : Booked.Directive) : Prop := ds[d.idx]?.any isTransaction = true

instance (ds : List Raw.Directive) (d : Booked.Directive) : Decidable (IsWritten ds d) := inferInstanceAs (Decidable (_ = true))

/-- A filter which looks at the date only. -/
def ByDate (f : Clj.Filter) : Prop := ∀ x y : Clj.Fields, x.date = y.date → f x = f y

/-- The directive has a date which the filters accept. -/
def InPeriod (fs : List Clj.Filter) (d : Booked.Directive) : Prop := ∀ f ∈ fs, f { date := some d.date } = true

instance (fs : List Clj.Filter) (d : Booked.Directive) : Decidable (InPeriod fs d) := inferInstanceAs (Decidable (∀ f ∈ fs, _))

end Spec
end Limabean
