/-
A reference semantics of what is wrong with a ledger: which directive has which fault, also after other faults, and
which ledgers make booking crash. No positions in the output, no indexes, no hash maps, no texts of reports.
-/
import Verif.Spec.Reference

namespace Limabean
namespace Spec

/-- How an account stands; the numbers are those of the directives which made it so. -/
inductive Standing
  /-- never opened -/
  | unknown
  /-- opened by a directive -/
  | opn (by_ : Nat)
  /-- closed by a directive -/
  | closed (by_ : Nat)
  /-- opened by a directive although another had closed it: a fault, but the account counts as open from there on -/
  | reopened (by_ closed : Nat)
deriving DecidableEq, Repr

/-- What may be wrong. -/
inductive Fault
  | notOpen
  | closed (by_ : Nat)
  | alreadyOpen (by_ : Nat)
  | alreadyClosed (by_ : Nat)
  | currency (opened : Nat)
  /-- the booking library refuses the transaction -/
  | refused (why : BookError)
  /-- a balance assertion is off by so much -/
  | gap (units : Dec) (cur : Str)
  /-- a pad when the assertion holds anyway -/
  | padUnneeded
  /-- a pad when another pad follows -/
  | padSuperseded (second : Nat)
  /-- a pad without an assertion afterwards -/
  | padUnbalanced
deriving DecidableEq

/-- A fault at a directive, maybe at one of its postings. -/
structure Finding where
  directive : Nat
  posting : Option Nat := none
  fault : Fault
deriving DecidableEq

/-- What has to be remembered. -/
structure Tally (L : BookLib) where
  /-- names of the accounts opened so far -/
  names : List Str
  /-- the directive which first opened an account, and what it says -/
  terms : Str → Option (Nat × Raw.Open)
  /-- how an account stands -/
  standing : Str → Standing
  /-- holdings of the accounts opened so far -/
  held : Str → Option L.Pos
  /-- the pending pad of an account: which directive, and the source -/
  pending : Str → Option (Nat × Str)

/-- Nothing yet. -/
def Tally.init (L : BookLib) : Tally L :=
  { names := [], terms := fun _ => none, standing := fun _ => .unknown, held := fun _ => none, pending := fun _ => none }

variable {L : BookLib}

/-- The total of a currency over an account and those below it. -/
def Tally.total (s : Tally L) (acc cur : Str) : Dec :=
  Dec.sum ((s.names.filter fun a => Below acc a).map fun a => L.units ((s.held a).getD L.empty) cur)

/-- What is wrong with using an account. -/
def Tally.account (s : Tally L) (acc : Str) : Option Fault :=
  match s.standing acc with
  | .unknown => some .notOpen
  | .closed n => some (.closed n)
  | .opn _ | .reopened _ _ => none

/-- What is wrong with using an account for a currency. -/
def Tally.usage (s : Tally L) (acc cur : Str) : Option Fault :=
  match s.account acc, s.terms acc with
  | some f, _ => some f
  | none, some (n, o) =>
    if o.currencies.getD [] = [] ∨ cur ∈ o.currencies.getD [] then none else some (.currency n)
  | none, none => none

/-- The first posting which uses an account wrongly. -/
def Tally.wrongPosting (s : Tally L) : Nat → List (Interpolated × Raw.PostingSpec) → Option (Nat × Fault)
  | _, [] => none
  | i, (ip, p) :: rest =>
    match s.usage p.acc ip.currency with
    | some f => some (i, f)
    | none => s.wrongPosting (i + 1) rest

/-- The booking method for an account. -/
def Tally.method (s : Tally L) (option : Option Booking) (acc : Str) : Booking :=
  match s.terms acc with
  | some (_, o) => Spec.method L option o
  | none => Spec.method L option { acc := acc }

/-- Change the holdings of an account. -/
def Tally.change (s : Tally L) (acc : Str) (units : Dec) (cur : Str) : Tally L :=
  { s with held := Function.update s.held acc ((s.held acc).map fun p => L.accumulate p units cur L.dflt) }

/-- Nothing is changed, and maybe there is a fault at a directive. -/
def Tally.unchanged (s : Tally L) (n : Nat) (f : Fault) : Option (Tally L × List Finding) :=
  some (s, [{ directive := n, fault := f }])

/-- One directive, with its number: what is remembered afterwards, and what is wrong. `none` means a crash: an assertion
needs a pad whose source was never opened. -/
def Tally.step (option : Option Booking) (tol : Tolerance) (s : Tally L) (n : Nat) (d : Raw.Directive) :
    Option (Tally L × List Finding) :=
  match d.variant with
  | .opn o =>
    match s.standing o.acc with
    | .unknown => some ({ s with
        names := s.names ++ [o.acc]
        terms := Function.update s.terms o.acc (some (n, o))
        standing := Function.update s.standing o.acc (.opn n)
        held := Function.update s.held o.acc (some L.empty) }, [])
    | .opn k | .reopened k _ => s.unchanged n (.alreadyOpen k)
    | .closed k => some ({ s with standing := Function.update s.standing o.acc (.reopened n k) },
        [{ directive := n, fault := .closed k }])
  | .close c =>
    match s.standing c.acc with
    | .opn _ => some ({ s with standing := Function.update s.standing c.acc (.closed n) }, [])
    | .reopened _ k => s.unchanged n (.alreadyClosed k)
    | .unknown | .closed _ => s.unchanged n .notOpen
  | .transaction t =>
    match L.book d.date t.postings tol s.held (s.method option) with
    | .error e => s.unchanged n (.refused e)
    | .ok r =>
      match s.wrongPosting 0 (r.interpolated.zip t.postings) with
      | some (i, f) => some (s, [{ directive := n, posting := some i, fault := f }])
      | none => some ({ s with held := r.updated.foldl (fun h aq => Function.update h aq.1 (some aq.2)) s.held }, [])
  | .balance b =>
    match s.usage b.acc b.cur with
    | some f => s.unchanged n f
    | none =>
      let gap := b.units.sub (s.total b.acc b.cur)
      let s' := { s with pending := Function.update s.pending b.acc none }
      match gap.abs.gt (toleranceDec tol.multiplier b), s.pending b.acc with
      | false, none => some (s, [])
      | false, some (k, _) => some (s', [{ directive := k, fault := .padUnneeded }])
      | true, none => some (s.change b.acc gap b.cur, [{ directive := n, fault := .gap gap b.cur }])
      | true, some (_, src) =>
        if src ∈ s.names then some ((s'.change b.acc gap b.cur).change src gap.neg b.cur, []) else none
  | .pad p =>
    match s.account p.acc, s.pending p.acc with
    | some f, _ => s.unchanged n f
    | none, some (k, _) => some ({ s with pending := Function.update s.pending p.acc none },
        [{ directive := k, fault := .padSuperseded n }])
    | none, none => some ({ s with pending := Function.update s.pending p.acc (some (n, p.source)) }, [])
  | _ => some (s, [])

/-- All the directives, the first of which has number `n`. -/
def Tally.run (option : Option Booking) (tol : Tolerance) : Nat → Tally L → List Raw.Directive →
    Option (Tally L × List Finding)
  | _, s, [] => some (s, [])
  | n, s, d :: ds =>
    match s.step option tol n d with
    | none => none
    | some (s', fs) =>
      match Tally.run option tol (n + 1) s' ds with
      | none => none
      | some (s'', fs') => some (s'', fs ++ fs')

/-- The pads which are pending. -/
def Tally.unbalanced (s : Tally L) : List Finding :=
  s.names.filterMap fun a => (s.pending a).map fun p => { directive := p.1, fault := .padUnbalanced }

/-- Everything which is wrong with a ledger: the faults of the directives one after the other, and those pads which are
pending at the end. `none` means a crash. -/
def audit (L : BookLib) (option : Option Booking) (tol : Tolerance) (ds : List Raw.Directive) :
    Option (List Finding × List Finding) :=
  (Tally.run option tol 0 (Tally.init L) ds).map fun r => (r.2, r.1.unbalanced)

/-! ### Reports of findings -/

/-- A fault as the reason of a report, and as the directives to which it refers. -/
inductive Said : Fault → Reason → Option (List ElementIdx) → Prop
  | notOpen : Said .notOpen .accountNotOpen none
  | closed (k) : Said (.closed k) .accountClosed (some [{ directive := k }])
  | alreadyOpen (k) : Said (.alreadyOpen k) .alreadyOpened (some [{ directive := k }])
  | alreadyClosed (k) : Said (.alreadyClosed k) .alreadyClosed (some [{ directive := k }])
  | currency (k) : Said (.currency k) .currencyIncompatible (some [{ directive := k }])
  | transaction (text) : Said (.refused (.transaction text)) (.library text) none
  | posting (i text) : Said (.refused (.posting i text)) (.libraryPosting text i) none
  | gap (total units cur) : Said (.gap units cur) (.accumulated total units cur) none
  | padUnneeded : Said .padUnneeded .unusedNoAdjustment none
  | padSuperseded (k) : Said (.padSuperseded k) .unusedSecondPad (some [{ directive := k }])
  | padUnbalanced : Said .padUnbalanced .unusedNoBalance none

/-- A report says what was found, at the place where it was found. -/
structure Announces (x : IndexedReport) (f : Finding) : Prop where
  place : x.idx = { directive := f.directive, posting := f.posting }
  said : Said f.fault x.reason x.related

end Spec
end Limabean
