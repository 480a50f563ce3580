/-
A reference semantics of which ledgers are accepted: no positions, no indexes, no hash maps, no reports.
A ledger is accepted iff every directive is acceptable after those before it and no pad is left pending.
-/
import Verif.Spec.Ledger

namespace Limabean
namespace Spec

/-- What has to be remembered besides the history of directives. -/
structure Ref (L : BookLib) where
  /-- names of the accounts opened so far -/
  names : List Str
  /-- holdings of the accounts opened so far -/
  held : Str → Option L.Pos
  /-- source of the pending pad of an account -/
  pending : Str → Option Str

/-- Nothing yet. -/
def Ref.init (L : BookLib) : Ref L := { names := [], held := fun _ => none, pending := fun _ => none }

variable {L : BookLib}

/-- The total of a currency over an account and those below it. -/
def Ref.total (s : Ref L) (acc cur : Str) : Dec :=
  Dec.sum ((s.names.filter fun a => Below acc a).map fun a => L.units ((s.held a).getD L.empty) cur)

/-- Is the account open, and may it hold the currency? -/
def usable (history : List Raw.Directive) (acc cur : Str) : Bool :=
  match life history acc with
  | .opn o => (o.currencies.getD []).isEmpty || (o.currencies.getD []).contains cur
  | _ => false

/-- Is the account open? -/
def isOpen (history : List Raw.Directive) (acc : Str) : Bool :=
  match life history acc with
  | .opn _ => true
  | _ => false

/-- The booking method offered to the library for an account. -/
def methodAt (L : BookLib) (option : Option Booking) (history : List Raw.Directive) (acc : Str) : Booking :=
  match life history acc with
  | .opn o | .closed o => method L option o
  | .never => method L option { acc := acc }

/-- The tolerance of a balance assertion as a decimal. -/
def toleranceDec (multiplier : Option Dec) (b : Raw.Balance) : Dec :=
  match b.tolerance with
  | some t => t
  | none => if b.units.s = 0 then ⟨0, 0⟩ else ((Dec.mk 1 b.units.s).mul (multiplier.getD ⟨5, 1⟩)).mul ⟨2, 0⟩

/-- Change the holdings of an account. -/
def Ref.change (s : Ref L) (acc : Str) (units : Dec) (cur : Str) : Ref L :=
  { s with held := Function.update s.held acc ((s.held acc).map fun p => L.accumulate p units cur L.dflt) }

/-- The reference semantics of one directive after some history; `none` means that it is not acceptable. -/
def Ref.step (option : Option Booking) (tol : Tolerance) (history : List Raw.Directive) (s : Ref L)
    (d : Raw.Directive) : Option (Ref L) :=
  match d.variant with
  | .opn o =>
    if life history o.acc = .never then
      some { s with names := s.names ++ [o.acc], held := Function.update s.held o.acc (some L.empty) }
    else none
  | .close c => if isOpen history c.acc then some s else none
  | .transaction t =>
    match L.book d.date t.postings tol s.held (methodAt L option history) with
    | .error _ => none
    | .ok r =>
      if (r.interpolated.zip t.postings).all fun ip => usable history ip.2.acc ip.1.currency then
        some { s with held := r.updated.foldl (fun h aq => Function.update h aq.1 (some aq.2)) s.held }
      else none
  | .balance b =>
    if usable history b.acc b.cur then
      let gap := b.units.sub (s.total b.acc b.cur)
      match gap.abs.gt (toleranceDec tol.multiplier b), s.pending b.acc with
      | false, none => some s
      | true, some src =>
        if src ∈ s.names then
          some (({ s with pending := Function.update s.pending b.acc none }.change b.acc gap b.cur).change
            src gap.neg b.cur)
        else none
      | false, some _ => none
      | true, none => none
    else none
  | .pad p =>
    if isOpen history p.acc ∧ s.pending p.acc = none then
      some { s with pending := Function.update s.pending p.acc (some p.source) }
    else none
  | _ => some s

/-- The reference semantics of a list of directives after some history. -/
def Ref.run (option : Option Booking) (tol : Tolerance) : List Raw.Directive → Ref L → List Raw.Directive → Option (Ref L)
  | _, s, [] => some s
  | history, s, d :: ds =>
    match s.step option tol history d with
    | some s' => Ref.run option tol (history ++ [d]) s' ds
    | none => none

/-- The ledgers which are accepted. -/
def Accepted (L : BookLib) (option : Option Booking) (tol : Tolerance) (ds : List Raw.Directive) : Prop :=
  ∃ s, Ref.run option tol [] (Ref.init L) ds = some s ∧ ∀ a, s.pending a = none

end Spec
end Limabean
