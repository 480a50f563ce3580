/-
Opening balances: a ledger which brings forward the balances of another.
-/
import Verif.Spec.Continued

namespace Limabean
namespace Spec

/-- The directives which open accounts. -/
def opensOf (ds : List Raw.Directive) : List Raw.Directive := ds.filter fun d => match d.variant with | .opn _ => true | _ => false

/-- The directives which close accounts. -/
def closesOf (ds : List Raw.Directive) : List Raw.Directive := ds.filter fun d => match d.variant with | .close _ => true | _ => false

/-- An amount which is brought forward. -/
structure Forward where
  date : Date
  acc : Str
  units : Dec
  cur : Str

/-- The transaction which brings an amount forward from an account `source`. -/
def Forward.transaction (source : Str) (t : Forward) : Raw.Directive :=
  { date := t.date
    variant := .transaction { flag := str% "*", postings :=
      [{ acc := t.acc, units := some t.units, cur := some t.cur }, { acc := source, units := some t.units.neg, cur := some t.cur }] } }

/-- The accounts are opened as in the old ledger, then their balances are brought forward from one more account, and those which were closed
are closed. -/
def openingLedger (date : Date) (source : Str) (ts : List Forward) (old : List Raw.Directive) : List Raw.Directive :=
  opensOf old ++ ({ date := date, variant := .opn { acc := source } } :: (ts.map (Forward.transaction source) ++ closesOf old))

/-- What is brought forward are the balances of an old ledger: for each account and each currency the amounts add up to what was posted.
The accounts take these currencies. -/
structure BringsForward (old : List Raw.Directive) (out : List Booked.Directive) (source : Str) (ts : List Forward) : Prop where
  known : ∀ t ∈ ts, t.acc ≠ source ∧ life old t.acc ≠ .never ∧ Permits old t.acc t.cur
  sums : ∀ a c, a ≠ source → ((ts.filter fun t => t.acc = a ∧ t.cur = c).map fun t => t.units.val).sum = posted out a c

end Spec
end Limabean
