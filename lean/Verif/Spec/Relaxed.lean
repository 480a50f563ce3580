/-
Leaving out checks of a ledger, and loosening others.
-/
import Verif.Spec.Swap
import Verif.Spec.Mended

namespace Limabean
namespace Spec

/-- Of the directives on an account, pads and assertions, the last is a pad. -/
def padWaits (pre : List Raw.Directive) (acc : Str) : Bool :=
  pre.foldl (fun w d => match d.variant with
    | .pad p => if p.acc = acc then true else w
    | .balance b => if b.acc = acc then false else w
    | _ => w) false

/-- The directive neither opens an account nor moves anything. -/
def isCheck (d : Raw.Directive) : Bool :=
  match d.variant with
  | .opn _ | .transaction _ | .pad _ => false
  | _ => true

/-- An account opened with these currencies takes this one. -/
def permits (currencies : Option (List Str)) (cur : Str) : Prop := currencies.getD [] = [] ∨ cur ∈ currencies.getD []

/-- What is changed in a ledger, by the numbers of directives: which are kept, the currencies of open directives, and the tolerances of
assertions. -/
structure Relaxation where
  keep : Nat → Bool
  currencies : Nat → Option (List Str) → Option (List Str) := fun _ => id
  tolerance : Nat → Option Dec → Option Dec := fun _ => id

/-- The changed directive. -/
def Relaxation.directive (r : Relaxation) (n : Nat) (d : Raw.Directive) : Raw.Directive :=
  match d.variant with
  | .opn o => { d with variant := .opn { o with currencies := r.currencies n o.currencies } }
  | .balance b => { d with variant := .balance { b with tolerance := r.tolerance n b.tolerance } }
  | _ => d

/-- The changed directives, the first of which has number `n`. -/
def Relaxation.fromNumber (r : Relaxation) : Nat → List Raw.Directive → List Raw.Directive
  | _, [] => []
  | n, d :: ds => (if r.keep n then [r.directive n d] else []) ++ r.fromNumber (n + 1) ds

/-- The changed ledger. -/
def Relaxation.ledger (r : Relaxation) (ds : List Raw.Directive) : List Raw.Directive := r.fromNumber 0 ds

/-- The same change in a booked directive, which also gets the number of its place in the changed ledger. -/
def Relaxation.booked (r : Relaxation) (d : Booked.Directive) : Booked.Directive :=
  { d with
    idx := countChosen r.keep d.idx
    variant := match d.variant with
      | .opn o => .opn { o with currencies := r.currencies d.idx o.currencies }
      | .balance b => .balance { b with raw := { b.raw with tolerance := r.tolerance d.idx b.raw.tolerance } }
      | v => v }

/-- What is allowed to change: a directive may be left out if it is a check; an open directive must take the currencies it took, and the
tolerance of an assertion must not become smaller. Assertions which fill a pad stay as they are. -/
structure Relaxation.Allows (r : Relaxation) (m : Option Dec) (pre : List Raw.Directive) (d : Raw.Directive) : Prop where
  drop : r.keep pre.length = false → isCheck d = true ∧ ∀ b, d.variant = .balance b → padWaits pre b.acc = false
  currencies : ∀ o, d.variant = .opn o → ∀ c, permits o.currencies c → permits (r.currencies pre.length o.currencies) c
  tolerance : ∀ b, d.variant = .balance b → r.tolerance pre.length b.tolerance = b.tolerance ∨
    (padWaits pre b.acc = false ∧ Spec.tolerance m b ≤ Spec.tolerance m { b with tolerance := r.tolerance pre.length b.tolerance })

/-- Only what is allowed is changed. -/
def Relaxation.Relaxes (r : Relaxation) (m : Option Dec) (ds : List Raw.Directive) : Prop :=
  ∀ pre d post, ds = pre ++ d :: post → r.Allows m pre d

end Spec
end Limabean
