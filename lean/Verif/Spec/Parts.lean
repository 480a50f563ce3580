/-
Parts of a ledger which have nothing to do with each other.
-/
import Verif.Spec.Ledger

namespace Limabean
namespace Spec

/-- The accounts which a directive uses, as far as booking is concerned. -/
def accountsOf (d : Raw.Directive) : List Str :=
  match d.variant with
  | .transaction t => t.postings.map fun p => p.acc
  | .balance b => [b.acc]
  | .opn o => [o.acc]
  | .close c => [c.acc]
  | .pad p => [p.acc, p.source]
  | _ => []

/-- The accounts are divided in two, and the directives are so accordingly: no directive uses accounts of both kinds, and no account
of one kind is below an account of the other. Directives which use no account may be on either side. -/
structure Apart (mine : Str → Bool) (part : Raw.Directive → Bool) (ds : List Raw.Directive) : Prop where
  directives : ∀ d ∈ ds, ∀ a ∈ accountsOf d, mine a = part d
  below : ∀ d ∈ ds, ∀ a ∈ accountsOf d, ∀ e ∈ ds, ∀ b ∈ accountsOf e, Below a b → mine a = mine b

/-- Is the directive at a position in the part? -/
def inPart (part : Raw.Directive → Bool) (ds : List Raw.Directive) (i : Nat) : Bool :=
  match ds[i]? with
  | some d => part d
  | none => false

/-- The position in the part: so many directives of the part come before. -/
def positionIn (part : Raw.Directive → Bool) (ds : List Raw.Directive) (i : Nat) : Nat := ((ds.take i).filter part).length

/-- The booking library looks only at the accounts of the transaction. -/
def LooksAtItsAccounts (L : BookLib) : Prop :=
  ∀ date ps tol inv inv' method method', (∀ p ∈ ps, inv p.acc = inv' p.acc ∧ method p.acc = method' p.acc) →
    L.book date ps tol inv method = L.book date ps tol inv' method'

end Spec
end Limabean
