/-
Mending assertions which fail: a pad is written before each of them.
-/
import Verif.Spec.Swap
import Verif.Spec.Parts

namespace Limabean
namespace Spec

/-- A pad for an assertion, from the given account. -/
def padBefore (e : Str) (d : Raw.Directive) : List Raw.Directive :=
  match d.variant with
  | .balance b => [{ date := d.date, variant := .pad { acc := b.acc, source := e } }]
  | _ => []

/-- The directives, of which the first has number `n`, with a pad before each assertion whose number is chosen. -/
def mendedFrom (e : Str) (chosen : Nat → Bool) : Nat → List Raw.Directive → List Raw.Directive
  | _, [] => []
  | n, d :: ds => (if chosen n then padBefore e d else []) ++ d :: mendedFrom e chosen (n + 1) ds

/-- A ledger in which an account is opened first, and a pad from this account is written before each assertion whose number is chosen. -/
def mended (e : Str) (date : Date) (chosen : Nat → Bool) (ds : List Raw.Directive) : List Raw.Directive :=
  { date := date, variant := .opn { acc := e } } :: mendedFrom e chosen 0 ds

/-- How many numbers below `n` are chosen. -/
def countChosen (chosen : Nat → Bool) : Nat → Nat
  | 0 => 0
  | n + 1 => countChosen chosen n + (chosen n).toNat

/-- The number which a directive has in the mended ledger. -/
def movedTo (chosen : Nat → Bool) (n : Nat) : Nat := n + 1 + countChosen chosen (n + 1)

/-- An account which is not used in the ledger, and which no assertion is about. -/
structure Unused (e : Str) (ds : List Raw.Directive) : Prop where
  uses : ∀ d ∈ ds, e ∉ accountsOf d
  above : ∀ d ∈ ds, ∀ b, d.variant = .balance b → ¬ Below b.acc e

/-- Is this a failed assertion? -/
def Fault.isGap : Fault → Bool
  | .gap _ _ => true
  | _ => false

/-- Is this the report of a failed assertion? -/
def gapReport (r : IndexedReport) : Bool :=
  match r.reason with
  | .accumulated _ _ _ => true
  | _ => false

/-- Reports other than those of failed assertions which are chosen. -/
def others (chosen : Nat → Bool) (es : List IndexedReport) : List IndexedReport :=
  es.filter fun r => !(chosen r.idx.directive && gapReport r)

end Spec
end Limabean
