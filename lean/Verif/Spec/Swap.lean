/-
Directives which have nothing to do with each other, and renumbering.
-/
import Verif.Spec.Output

namespace Limabean
namespace Spec

/-- The sources of the pads of an account. -/
def padSources (pre : List Raw.Directive) (acc : Str) : List Str :=
  pre.filterMap fun d =>
    match d.variant with
    | .pad p => if p.acc = acc then some p.source else none
    | _ => none

/-- The accounts which a directive concerns: those it uses, and for an assertion also the source of a pad which may be
filled. -/
def concerns (pre : List Raw.Directive) (d : Raw.Directive) : List Str :=
  match d.variant with
  | .transaction t => t.postings.map fun p => p.acc
  | .balance b => b.acc :: padSources pre b.acc
  | .opn o => [o.acc]
  | .close c => [c.acc]
  | .pad p => [p.acc]
  | _ => []

/-- The accounts at which a directive looks: those it concerns, and for an assertion also those below its account. -/
def LooksAt (pre : List Raw.Directive) (d : Raw.Directive) (a : Str) : Prop :=
  a ∈ concerns pre d ∨ ∃ b, d.variant = .balance b ∧ Below b.acc a

/-- After `pre`, two directives have nothing to do with each other: neither concerns an account at which the other
looks. -/
structure Unrelated (pre : List Raw.Directive) (x y : Raw.Directive) : Prop where
  left : ∀ a ∈ concerns pre x, ¬ LooksAt pre y a
  right : ∀ a ∈ concerns pre y, ¬ LooksAt pre x a

/-- The number of a directive once those at positions `n` and `n + 1` have changed places. -/
def exchange (n k : Nat) : Nat := if k = n then n + 1 else if k = n + 1 then n else k

/-- The same fault with other numbers. -/
def Fault.renumber (f : Nat → Nat) : Fault → Fault
  | .notOpen => .notOpen
  | .closed k => .closed (f k)
  | .alreadyOpen k => .alreadyOpen (f k)
  | .alreadyClosed k => .alreadyClosed (f k)
  | .currency k => .currency (f k)
  | .refused e => .refused e
  | .gap u c => .gap u c
  | .padUnneeded => .padUnneeded
  | .padSuperseded k => .padSuperseded (f k)
  | .padUnbalanced => .padUnbalanced

/-- The same finding with other numbers. -/
def Finding.renumber (f : Nat → Nat) (x : Finding) : Finding :=
  { directive := f x.directive, posting := x.posting, fault := x.fault.renumber f }

/-- The same booked directive with another number. -/
def renumbered (f : Nat → Nat) (d : Booked.Directive) : Booked.Directive := { d with idx := f d.idx }

/-- The same report on a directive with another number. The directives to which it refers are not looked at. -/
def renumberedReport (f : Nat → Nat) (r : IndexedReport) : IndexedReport :=
  { r with idx := { r.idx with directive := f r.idx.directive } }

/-- The reports tell what was found, in some order. -/
def Tell (es : List IndexedReport) (fs : List Finding) : Prop :=
  ∃ es', es.Perm es' ∧ List.Forall₂ Announces es' fs

end Spec
end Limabean
