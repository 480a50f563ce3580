/-
The statement of an account: what happened on it and below it since its last assertion, with a running total. Built from the audit of
`Spec.Faults`; no positions in the output, no windows.
-/
import Verif.Spec.Faults
import Verif.Pod.Accumulator

namespace Limabean
namespace Spec

/-- What a directive has done: moved amounts, or asserted one. The number is that of the directive. -/
inductive Noted
  | moves (number : Nat) (date : Date) (text : Option Str) (lines : List (Str × Dec))
  | asserted (number : Nat) (acc cur : Str) (units : Dec)
deriving DecidableEq

/-- The number of the directive. -/
def Noted.number : Noted → Nat
  | .moves n _ _ _ => n
  | .asserted n _ _ _ => n

/-- The amounts which directive `k` moves are known now. -/
def Noted.fill (k : Nat) (lines : List (Str × Dec)) : Noted → Noted
  | .moves n date text old => .moves n date text (if n = k then lines else old)
  | x => x

/-- Does it assert an amount of the account? -/
def Noted.assertsOn (acc : Str) : Noted → Bool
  | .asserted _ a _ _ => a = acc
  | _ => false

/-- What a transaction moves: for every posting its units, or those of the lots which it was split into. -/
def movesOf (l : List (Interpolated × Raw.PostingSpec)) : List (Str × Dec) :=
  l.flatMap fun x => match x.1.cost with
    | some lots => lots.map fun lot => (x.2.acc, lot.units)
    | none => [(x.2.acc, x.1.units)]

variable {L : BookLib}

/-- One more directive. Nothing is noted of a directive which has a fault, but an assertion is also if it fails; a pad moves nothing
until an assertion needs it. -/
def Tally.note (option : Option Booking) (tol : Tolerance) (s : Tally L) (l : List Noted) (n : Nat) (d : Raw.Directive) :
    List Noted :=
  match d.variant with
  | .transaction t =>
    match L.book d.date t.postings tol s.held (s.method option) with
    | .error _ => l
    | .ok r =>
      match s.wrongPosting 0 (r.interpolated.zip t.postings) with
      | some _ => l
      | none => l ++ [.moves n d.date (t.payee.orElse fun _ => t.narration) (movesOf (r.interpolated.zip t.postings))]
  | .pad p =>
    match s.account p.acc, s.pending p.acc with
    | none, none => l ++ [.moves n d.date none []]
    | _, _ => l
  | .balance b =>
    match s.usage b.acc b.cur with
    | some _ => l
    | none =>
      let gap := b.units.sub (s.total b.acc b.cur)
      match gap.abs.gt (toleranceDec tol.multiplier b), s.pending b.acc with
      | true, some (k, src) => l.map (Noted.fill k [(b.acc, gap), (src, gap.neg)]) ++ [.asserted n b.acc b.cur b.units]
      | _, _ => l ++ [.asserted n b.acc b.cur b.units]
  | _ => l

/-- All the directives, the first of which has number `n`: what the audit remembers, and what is noted. -/
def Tally.notes (option : Option Booking) (tol : Tolerance) : Nat → Tally L → List Noted → List Raw.Directive →
    Option (Tally L × List Noted)
  | _, s, l, [] => some (s, l)
  | n, s, l, d :: ds =>
    match s.step option tol n d with
    | none => none
    | some (s', _) => Tally.notes option tol (n + 1) s' (s.note option tol l n d) ds

/-- What is noted after the last assertion on the account. -/
def sinceLast (acc : Str) (l : List Noted) : List Noted := (l.reverse.takeWhile fun x => !x.assertsOn acc).reverse

/-- The last assertion on the account, if it is of the currency; else zero. -/
def openingOf (acc cur : Str) (l : List Noted) : Dec :=
  match l.reverse.find? fun x => x.assertsOn acc with
  | some (.asserted _ _ c units) => if c = cur then units else Dec.zero
  | _ => Dec.zero

/-- A line of a statement. -/
structure StatementLine where
  date : Date
  acc : Str
  units : Dec
  /-- the total after this line -/
  total : Dec
  text : Option Str

/-- What was moved on the account and below it, in order: date, text, account and units. -/
def movedAt (acc : Str) (l : List Noted) : List (Date × Option Str × Str × Dec) :=
  l.flatMap fun x => match x with
    | .moves _ date text lines => (lines.filter fun y => Below acc y.1).map fun y => (date, text, y.1, y.2)
    | .asserted _ _ _ _ => []

/-- With a running total. -/
def runningFrom : Dec → List (Date × Option Str × Str × Dec) → List StatementLine
  | _, [] => []
  | total, (date, text, acc, units) :: rest =>
    { date := date, acc := acc, units := units, total := total.add units, text := text } :: runningFrom (total.add units) rest

/-- The statement of an account in a currency: the lines, and the last total. -/
def statementLines (acc cur : Str) (l : List Noted) : List StatementLine :=
  runningFrom (openingOf acc cur l) (movedAt acc (sinceLast acc l))

/-- The last total of the statement. -/
def statementTotal (acc cur : Str) (l : List Noted) : Dec :=
  ((statementLines acc cur l).getLast?.map StatementLine.total).getD (openingOf acc cur l)

/-- The lines as they are shown: the name of the account, without that which the statement is of, only if there are several. -/
def shownLines (base : Str) (l : List StatementLine) : List DiagRow :=
  l.map fun x =>
    { date := x.date, acc := if ∃ y ∈ l, ∃ z ∈ l, y.acc ≠ z.acc then some (x.acc.drop base.length) else none,
      units := x.units, total := x.total, description := x.text }

/-- What a report of a failed assertion says. -/
def IsStatement (L : BookLib) (o : BookOptions) (pre : List Raw.Directive) (d : Raw.Directive) (rep : IndexedReport) : Prop :=
  ∃ (b : Raw.Balance) (s : Tally L) (l : List Noted),
    d.variant = .balance b ∧ Tally.notes o.bookingMethod o.tolerance 0 (Tally.init L) [] pre = some (s, l) ∧
    rep = { reason := .accumulated (statementTotal b.acc b.cur l) (b.units.sub (s.total b.acc b.cur)) b.cur
            idx := { directive := pre.length }
            annotation := some (shownLines b.acc (statementLines b.acc b.cur l)) }

end Spec
end Limabean
