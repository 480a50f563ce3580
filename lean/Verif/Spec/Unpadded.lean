/-
Writing a transaction instead of a pad, and what is assumed of the booking library for it.
-/
import Verif.Spec.Output

namespace Limabean
namespace Spec

variable {L : BookLib}

/-- A posting of an amount, without cost or price. -/
def plainly (p : Booked.Posting) : Raw.PostingSpec := { flag := p.flag, acc := p.acc, units := some p.units, cur := some p.cur }

/-- The transaction which one may write instead of a pad. -/
def instead (date : Date) (ps : List Booked.Posting) : Raw.Directive :=
  { date := date, variant := .transaction { flag := str% "'P", postings := ps.map plainly } }

/-- What one writes for a directive: nothing for a pad, and before an assertion which fills a pad a transaction with what is missing. -/
def spelled (tol : Tolerance) (dates : Nat → Date) (x : Tally L × Nat × Raw.Directive) : List Raw.Directive :=
  match x.2.2.variant with
  | .pad _ => []
  | _ => ((x.1.fills tol x.2.2).toList.map fun f => instead (dates x.2.1) f.2) ++ [x.2.2]

/-- A ledger without pads: instead of each pad there is a transaction, directly before the assertion which fills the pad, with any date. -/
def withoutPads (L : BookLib) (option : Option Booking) (tol : Tolerance) (dates : Nat → Date) (ds : List Raw.Directive) :
    List Raw.Directive :=
  (Tally.history option tol 0 (Tally.init L) ds).flatMap (spelled tol dates)

/-- What is moved by a ledger: all its postings, without numbers. -/
def movements (out : List Booked.Directive) : List Booked.Posting := (postings out).map fun p => { p with idx := none }

/-- Neither a pad nor a transaction with the flag of pads. -/
def notPadding (d : Booked.Directive) : Bool :=
  match d.variant with
  | .pad _ => false
  | .transaction t => t.flag != str% "'P"
  | _ => true

/-- A directive without its number. -/
def unnumbered (d : Booked.Directive) : Booked.Directive := { d with idx := 0 }

/-- Moving an amount without cost and price between two open accounts is always booked, as it is, by adding it to what they hold. -/
def BooksPlainly (L : BookLib) : Prop :=
  ∀ d tol inv bk a b u c flag p q, a ≠ b → inv a = some p → inv b = some q →
    ∃ r, L.book d [{ flag := flag, acc := a, units := some u, cur := some c }, { flag := flag, acc := b, units := some u.neg, cur := some c }]
        tol inv bk = .ok r ∧
      r.interpolated = [{ units := u, currency := c }, { units := u.neg, currency := c }] ∧
      r.updated.foldl (fun (h : Str → Option L.Pos) x => Function.update h x.1 (some x.2)) inv =
        Function.update (Function.update inv a (some (L.accumulate p u c L.dflt))) b (some (L.accumulate q u.neg c L.dflt))

/-- Each pad could as well be a transaction: when an assertion fills it, its source is open and takes the currency, the source is not
the asserted account or below it, and the tolerance is not negative. -/
def Spellable (L : BookLib) (option : Option Booking) (tol : Tolerance) (ds : List Raw.Directive) : Prop :=
  ∀ s n d b k src, (s, n, d) ∈ Tally.history option tol 0 (Tally.init L) ds → d.variant = .balance b → s.pending b.acc = some (k, src) →
    s.usage src b.cur = none ∧ ¬ Below b.acc src ∧ 0 ≤ tolerance tol.multiplier b

end Spec
end Limabean
