/-
Specification vocabulary for booking: what the property theorems are stated in.
Nothing here refers to the accumulator.
-/
import Verif.Pod.BookingLib

namespace Limabean
namespace Spec

/-! ### Accounts -/

/-- Colon-separated components of an account name. -/
def components (a : Str) : List Str := a.splitOn ':'

/-- `b` is `a` or below `a`: the components of `a` are an initial segment of those of `b`. -/
def Below (a b : Str) : Prop := components a <+: components b

instance (a b : Str) : Decidable (Below a b) := inferInstanceAs (Decidable (_ <+: _))

/-! ### Postings of a booked ledger -/

/-- The postings of a booked directive. -/
def postingsOf (d : Booked.Directive) : List Booked.Posting :=
  match d.variant with
  | .transaction t => t.postings
  | _ => []

/-- All postings of a booked ledger. -/
def postings (ds : List Booked.Directive) : List Booked.Posting := ds.flatMap postingsOf

/-- Sum of the units of those postings which satisfy a condition. -/
def sumUnits (sel : Booked.Posting → Bool) (ds : List Booked.Directive) : ℚ :=
  (((postings ds).filter sel).map fun p => p.units.val).sum

/-- Units of a currency posted to one account. -/
def posted (ds : List Booked.Directive) (acc cur : Str) : ℚ :=
  sumUnits (fun p => p.acc = acc ∧ p.cur = cur) ds

/-- Units of a currency posted to an account and everything below. -/
def rolledUp (ds : List Booked.Directive) (acc cur : Str) : ℚ :=
  sumUnits (fun p => Below acc p.acc ∧ p.cur = cur) ds

/-! ### Input directives and what they become -/

/-- A directive kind carries its content over to the booked ledger (postings of transactions excepted). -/
inductive CarriesOver : Raw.Variant → Booked.Variant → Prop
  | transaction (t : Raw.Transaction) (ps : List Booked.Posting) :
      CarriesOver (.transaction t)
        (.transaction { flag := t.flag, payee := t.payee, narration := t.narration, postings := ps })
  | balance (b : Booked.Balance) : CarriesOver (.balance b.raw) (.balance b)
  | price (x) : CarriesOver (.price x) (.price x)
  | opn (x) : CarriesOver (.opn x) (.opn x)
  | close (x) : CarriesOver (.close x) (.close x)
  | commodity (x) : CarriesOver (.commodity x) (.commodity x)
  | pad (x) : CarriesOver (.pad x) (.pad x)
  | document (x) : CarriesOver (.document x) (.document x)
  | note (x) : CarriesOver (.note x) (.note x)
  | event (x) : CarriesOver (.event x) (.event x)
  | query (x) : CarriesOver (.query x) (.query x)
  | custom (x) : CarriesOver (.custom x) (.custom x)

/-- A booked directive has the position, date, tags, links and metadata of an input directive. -/
structure Envelope (n : Nat) (raw : Raw.Directive) (b : Booked.Directive) : Prop where
  idx : b.idx = n
  date : b.date = raw.date
  tags : b.tags = raw.tags
  links : b.links = raw.links
  metadata : b.metadata = raw.metadata

/-- Is it a pad directive? -/
def isPad (raw : Raw.Directive) : Bool :=
  match raw.variant with
  | .pad _ => true
  | _ => false

/-- `out` is the order-preserving image of the input directives, the first of which has position `n`: each becomes one
booked directive, except that a pad is followed by one transaction. -/
inductive Image : Nat → List Raw.Directive → List Booked.Directive → Prop
  | nil (n) : Image n [] []
  | single {n raw b rs bs} : isPad raw = false → Envelope n raw b → CarriesOver raw.variant b.variant →
      Image (n + 1) rs bs → Image n (raw :: rs) (b :: bs)
  | padded {n raw b b' rs bs} : isPad raw = true → Envelope n raw b → CarriesOver raw.variant b.variant →
      Envelope n raw b' → (∃ t, b'.variant = .transaction t ∧ t.payee = none ∧ t.narration = none) →
      Image (n + 1) rs bs → Image n (raw :: rs) (b :: b' :: bs)

/-! ### Postings of a transaction and what they become -/

/-- A cost as the library matched it. -/
def costOf (l : LotCost) : Booked.Cost :=
  { date := l.date, perUnit := l.perUnit, total := l.total, cur := l.cur, label := l.label, merge := l.merge }

/-- What an input posting at position `i` becomes, given the library's interpolation: one posting, or one per lot. -/
structure PostingImage (i : Nat) (p : Raw.PostingSpec) (ip : Interpolated) (g : List Booked.Posting) : Prop where
  same : ∀ q ∈ g, q.idx = some i ∧ q.acc = p.acc ∧ q.flag = p.flag ∧ q.tags = p.tags ∧ q.links = p.links ∧
    q.metadata = p.metadata ∧ q.cur = ip.currency
  plain : ip.cost = none → ∃ q, g = [q] ∧ q.units = ip.units ∧ q.cost = none ∧ q.price = ip.price
  lots : ∀ ls, ip.cost = some ls → g.map (fun q => (q.units, q.cost)) = ls.map fun l => (l.units, some (costOf l))

/-- What the postings of a transaction become, in order; the first has position `i`. -/
inductive PostingsImage : Nat → List Raw.PostingSpec → List Interpolated → List Booked.Posting → Prop
  | nil (i) : PostingsImage i [] [] []
  | cons {i p ip g ps ips qs} : PostingImage i p ip g → PostingsImage (i + 1) ps ips qs →
      PostingsImage i (p :: ps) (ip :: ips) (g ++ qs)

/-! ### Account lifecycle -/

/-- Lifecycle of an account. The open state carries the directive which opened it. -/
inductive Life
  | never
  | opn (o : Raw.Open)
  | closed (o : Raw.Open)
deriving DecidableEq

/-- How one directive moves the lifecycle of an account: opening works once, closing works on open accounts. -/
def Life.next (acc : Str) : Life → Raw.Variant → Life
  | .never, .opn o => if o.acc = acc then .opn o else .never
  | .opn o, .close c => if c.acc = acc then .closed o else .opn o
  | l, _ => l

/-- The lifecycle of an account after some directives. -/
def life (history : List Raw.Directive) (acc : Str) : Life :=
  history.foldl (fun l d => l.next acc d.variant) .never

/-- Is the account open after some directives? -/
def IsOpen (history : List Raw.Directive) (acc : Str) : Prop := ∃ o, life history acc = .opn o

/-- May the account hold the currency, by the directive which opened it? -/
def Permits (history : List Raw.Directive) (acc cur : Str) : Prop :=
  ∀ o, life history acc = .opn o ∨ life history acc = .closed o →
    o.currencies.getD [] = [] ∨ cur ∈ o.currencies.getD []

/-! ### Tolerances -/

/-- The tolerance of a balance assertion. -/
def tolerance (multiplier : Option Dec) (b : Raw.Balance) : ℚ :=
  match b.tolerance with
  | some t => t.val
  | none => if b.units.s = 0 then 0 else 2 * ((multiplier.map Dec.val).getD (1 / 2)) * (1 / 10 ^ b.units.s)

end Spec
end Limabean

namespace Limabean
namespace Spec

/-- Was there an attempt to open the account after it was closed? -/
def Reopened (history : List Raw.Directive) (acc : Str) : Prop :=
  ∃ pre d post o, history = pre ++ d :: post ∧ d.variant = .opn o ∧ o.acc = acc ∧ ∃ o', life pre acc = .closed o'

/-- The booking method of an account: what its open directive says, or else the option, and the library default in
place of an unsupported method. -/
def method (L : BookLib) (option : Option Booking) (o : Raw.Open) : Booking :=
  match o.booking, option with
  | some b, _ => if L.supported b then b else L.dflt
  | none, some b => if L.supported b then b else L.dflt
  | none, none => L.dflt

end Spec
end Limabean
