/-
Taking out directives which are reported.
-/
import Verif.Spec.Swap

namespace Limabean
namespace Spec

/-- The directives, of which the first has number `n`, without those whose number is given. -/
def withoutFrom (taken : Nat → Bool) : Nat → List Raw.Directive → List Raw.Directive
  | _, [] => []
  | n, d :: ds => if taken n then withoutFrom taken (n + 1) ds else d :: withoutFrom taken (n + 1) ds

/-- A ledger without the directives whose number is given. -/
def without (taken : Nat → Bool) (ds : List Raw.Directive) : List Raw.Directive := withoutFrom taken 0 ds

/-- The number which a directive has once others have been taken out: how many of those before it are left. -/
def numberIn (taken : Nat → Bool) : Nat → Nat
  | 0 => 0
  | n + 1 => numberIn taken n + (!taken n).toNat

/-- Does this directive open an account? -/
def opens (d : Raw.Directive) : Bool :=
  match d.variant with
  | .opn _ => true
  | _ => false

/-- Reports of directives which have no effect: all but those of failed assertions, of a pad which another one follows, and of an account
which is opened again after it has been closed. -/
def Idle (ds : List Raw.Directive) (r : IndexedReport) : Prop :=
  match r.reason with
  | .accumulated _ _ _ => False
  | .unusedSecondPad => False
  | .accountClosed => ∀ d, ds[r.idx.directive]? = some d → opens d = false
  | _ => True

/-- The reports of the directives which are left. -/
def reportsLeft (taken : Nat → Bool) (es : List IndexedReport) : List IndexedReport :=
  es.filter fun r => !taken r.idx.directive

/-- Findings at directives which have no effect. -/
def Fault.idle (d : Raw.Directive) : Fault → Prop
  | .gap _ _ => False
  | .padSuperseded _ => False
  | .closed _ => opens d = false
  | _ => True

end Spec
end Limabean
