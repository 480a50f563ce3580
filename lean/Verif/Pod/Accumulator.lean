/-
The booking accumulator: rust/src/api/booking/accumulator.rs and rust/src/api/booking.rs.

`none` (type `Option`) stands for a panic wherever the result type is `Option …`; a returned error keeps the state as
it was mutated up to that point, as `&mut self` does. Not modelled here: `Decimal` overflow (see `Pod/Bounded`); the dead code at
accumulator.rs:447-449 (a local variable which is never read) and 813-856.
-/
import Verif.Pod.BookingLib

namespace Limabean

/-- `Range<usize>`. -/
structure Window where
  start : Nat
  stop : Nat
deriving DecidableEq, Repr

/-- `AccountBuilder`: accumulator.rs:767-774. -/
structure Account (L : BookLib) where
  allowed : List Str
  positions : L.Pos
  opened : ElementIdx
  pad : Option (Nat × ElementIdx) := none
  window : Option Window := none
  booking : Booking

/-- The mutable part of `Accumulator`: accumulator.rs:20-28. -/
structure State (L : BookLib) where
  opened : AMap Str ElementIdx := []
  closed : AMap Str ElementIdx := []
  accounts : AMap Str (Account L) := []
  warnings : List IndexedReport := []

/-- The constant part of `Accumulator` (accumulator.rs:25-26), with the iteration order of the `accounts` map. -/
structure Env (L : BookLib) where
  defaultBooking : Booking
  tolerance : Tolerance
  order : AMap Str (Account L) → AMap Str (Account L)

/-- An iteration order yields each entry once. -/
def Env.Fair {L : BookLib} (env : Env L) : Prop := ∀ m, (env.order m).Perm m

/-- Result of a fallible step on a state. -/
inductive Res (σ α : Type)
  | ok (s : σ) (a : α)
  | err (s : σ) (e : IndexedReport)
  | panic

/-- `is_nonstrict_subaccount`: accumulator.rs:691-696. -/
def isNonstrictSubaccount (base candidate : Str) : Bool :=
  match stripPrefix candidate base with
  | some rest => rest.isEmpty || rest.head? == some ':'
  | none => false

/-- `calculate_balance_margin`: accumulator.rs:698-706. -/
def calculateBalanceMargin (balanceUnits balanceTolerance accountUnits : Dec) : Option Dec :=
  let margin := balanceUnits.sub accountUnits
  if margin.abs.gt balanceTolerance then some margin else none

/-- `PAD_FLAG`: accumulator.rs:811. -/
def padFlag : Str := str% "'P"

/-- `calculate_balance_pad_postings`: accumulator.rs:708-740. -/
def calculateBalancePadPostings (cur : Str) (margin : Dec) (balanceAccount padSource : Str) :
    List Booked.Posting :=
  [ { flag := some padFlag, acc := balanceAccount, units := margin, cur := cur },
    { flag := some padFlag, acc := padSource, units := margin.neg, cur := cur } ]

section
variable {L : BookLib}

/-- `AccountBuilder::is_currency_valid`: accumulator.rs:792-794. -/
def Account.isCurrencyValid (a : Account L) (cur : Str) : Bool :=
  a.allowed.isEmpty || a.allowed.contains cur

/-- `AccountBuilder::validate_currency`: accumulator.rs:796-808; `none` is `Ok`. -/
def Account.validateCurrency (a : Account L) (cur : Str) (e : ElementIdx) : Option IndexedReport :=
  if a.isCurrencyValid cur then none
  else some ((e.report .currencyIncompatible).relatedTo a.opened)

/-- `adjust_account_to_match_balance` with `Adjustment::Add`: accumulator.rs:748-764. -/
def Account.adjustAdd (a : Account L) (cur : Str) (units : Dec) : Account L :=
  { a with positions := L.accumulate a.positions units cur L.dflt }

/-- `adjust_account_to_match_balance` with `Adjustment::Subtract`: accumulator.rs:748-764. -/
def Account.adjustSubtract (a : Account L) (cur : Str) (units : Dec) : Account L :=
  { a with positions := L.accumulate a.positions units.neg cur L.dflt }

/-- `AccountBuilder::new`: accumulator.rs:777-789. -/
def Account.new (allowed : List Str) (booking : Booking) (opened : ElementIdx) : Account L :=
  { allowed := allowed, positions := L.empty, opened := opened, booking := booking }

/-- `validate_account`: accumulator.rs:314-326; `none` is `Ok`. -/
def State.validateAccount (st : State L) (acc : Str) (e : ElementIdx) : Option IndexedReport :=
  if st.opened.has acc then none
  else match st.closed.get acc with
    | some closed => some ((e.report .accountClosed).relatedTo closed)
    | none => some (e.report .accountNotOpen)

/-- Result of a lookup which may be refused or panic. -/
inductive Got (α : Type)
  | ok (a : α)
  | err (e : IndexedReport)
  | panic

/-- `get_valid_account` and `get_mut_valid_account`: accumulator.rs:328-344. -/
def State.getValidAccount (st : State L) (acc : Str) (e : ElementIdx) : Got (Account L) :=
  match st.validateAccount acc e with
  | some r => .err r
  | none => match st.accounts.get acc with
    | some a => .ok a
    | none => .panic

/-- `validate_account_and_currency`: accumulator.rs:346-354. -/
def State.validateAccountAndCurrency (st : State L) (acc cur : Str) (e : ElementIdx) : Got Unit :=
  match st.getValidAccount acc e with
  | .ok a => match a.validateCurrency cur e with
    | none => .ok ()
    | some r => .err r
  | .err r => .err r
  | .panic => .panic

/-- Replace an account after mutating it. -/
def State.setAccount (st : State L) (acc : Str) (a : Account L) : State L :=
  { st with accounts := st.accounts.set acc a }

/-- `total_rollup_units_for_currency` with `account_and_subaccounts`: accumulator.rs:356-380. -/
def State.totalRollupUnits (env : Env L) (st : State L) (base cur : Str) : Dec :=
  Dec.sum (((env.order st.accounts).filter fun ca => isNonstrictSubaccount base ca.1).map
    fun ca => L.units ca.2.positions cur)

/-- The validation of the postings, returning the first error: accumulator.rs:223-239.
The list is the zip of interpolated and raw postings; `i` counts postings. -/
def State.firstPostingError (st : State L) (e : ElementIdx) :
    Nat → List (Interpolated × Raw.PostingSpec) → Got Unit
  | _, [] => .ok ()
  | i, (ip, p) :: rest =>
    match st.validateAccountAndCurrency p.acc ip.currency { directive := e.directive, posting := some i } with
    | .ok () => st.firstPostingError e (i + 1) rest
    | .err r => .err r
    | .panic => .panic

/-- `cur_posting_cost_to_cost`: accumulator.rs:860-872. -/
def curPostingCostToCost (l : LotCost) : Booked.Cost :=
  { date := l.date, perUnit := l.perUnit, total := l.total, cur := l.cur, label := l.label, merge := l.merge }

/-- One interpolated posting to booked postings: accumulator.rs:247-287. -/
def bookedPostingsOf (i : Nat) (ip : Interpolated) (p : Raw.PostingSpec) : List Booked.Posting :=
  match ip.cost with
  | some lots => lots.map fun l =>
    { idx := some i, flag := p.flag, acc := p.acc, units := l.units, cur := ip.currency,
      cost := some (curPostingCostToCost l), price := none,
      tags := p.tags, links := p.links, metadata := p.metadata }
  | none =>
    [{ idx := some i, flag := p.flag, acc := p.acc, units := ip.units, cur := ip.currency,
       cost := none, price := ip.price,
       tags := p.tags, links := p.links, metadata := p.metadata }]

/-- All interpolated postings to booked postings: accumulator.rs:243-288. -/
def bookedPostings : Nat → List (Interpolated × Raw.PostingSpec) → List Booked.Posting
  | _, [] => []
  | i, (ip, p) :: rest => bookedPostingsOf i ip p ++ bookedPostings (i + 1) rest

/-- Installing the updated inventories: accumulator.rs:290-294. -/
def State.installInventory (e : ElementIdx) : State L → List (Str × L.Pos) → Res (State L) Unit
  | st, [] => .ok st ()
  | st, (acc, pos) :: rest =>
    match st.getValidAccount acc e with
    | .ok a => State.installInventory e (st.setAccount acc { a with positions := pos }) rest
    | .err r => .err st r
    | .panic => .panic

/-- The inventory lookup given to the library: accumulator.rs:209. -/
def State.inventory (st : State L) (acc : Str) : Option L.Pos :=
  (st.accounts.get acc).map fun a => a.positions

/-- The booking method lookup given to the library: accumulator.rs:210-215. -/
def State.bookingFor (env : Env L) (st : State L) (acc : Str) : Booking :=
  ((st.accounts.get acc).map fun a => a.booking).getD env.defaultBooking

/-- `book`: accumulator.rs:196-312. -/
def State.book (env : Env L) (st : State L) (date : Date) (postings : List Raw.PostingSpec) (e : ElementIdx) :
    Res (State L) (List Booked.Posting) :=
  match L.book date postings env.tolerance st.inventory (st.bookingFor env) with
  | .ok r =>
    let zipped := r.interpolated.zip postings
    match st.firstPostingError e 0 zipped with
    | .err x => .err st x
    | .panic => .panic
    | .ok () =>
      let booked := bookedPostings 0 zipped
      match State.installInventory e st r.updated with
      | .ok st' () => .ok st' booked
      | .err st' x => .err st' x
      | .panic => .panic
  | .error (.transaction text) => .err st (e.report (.library text))
  | .error (.posting i text) => .err st (e.report (.libraryPosting text i))

/-- `transaction`: accumulator.rs:177-194. -/
def State.transaction (env : Env L) (st : State L) (t : Raw.Transaction) (date : Date) (e : ElementIdx) :
    Res (State L) Booked.Variant :=
  match st.book env date t.postings e with
  | .ok st' postings => .ok st' (.transaction
      { flag := t.flag, payee := t.payee, narration := t.narration, postings := postings })
  | .err st' x => .err st' x
  | .panic => .panic

/-- The tolerance of a balance directive: accumulator.rs:391-402. -/
def effectiveTolerance (env : Env L) (b : Raw.Balance) : Dec :=
  match b.tolerance with
  | some t => t
  | none =>
    if b.units.s > 0 then
      ((Dec.mk 1 b.units.s).mul (env.tolerance.multiplier.getD (Dec.mk 5 1))).mul Dec.two
    else Dec.zero

/-- Set the postings of the transaction at a position (`booked_directives[i]`); `none` is a panic, when there is no
transaction there: accumulator.rs:459-469. -/
def setPostingsAt (booked : List Booked.Directive) (i : Nat) (ps : List Booked.Posting) :
    Option (List Booked.Directive) :=
  match booked[i]? with
  | some d => match d.variant with
    | .transaction t => some (booked.set i { d with variant := .transaction { t with postings := ps } })
    | _ => none
  | none => none

/-- The account once its balance window is advanced and its pad taken: accumulator.rs:412-420. -/
def Account.advance (a : Account L) (len : Nat) : Account L :=
  { a with
    window := some ⟨match a.window with | some w => w.stop | none => 0, len⟩
    pad := none }

/-- Filling of the pad transaction and adjustment of the source: accumulator.rs:451-478. -/
def State.fillPad (st : State L) (b : Raw.Balance) (margin : Dec) (padIdx : Nat)
    (booked : List Booked.Directive) :
    Res (State L) (Booked.Variant × List Booked.Directive) :=
  match booked[padIdx]? with
  | some ⟨_, _, _, _, _, .pad pad⟩ =>
    match setPostingsAt booked (padIdx + 1)
        (calculateBalancePadPostings b.cur margin b.acc pad.source) with
    | none => .panic
    | some booked' =>
      match st.accounts.get pad.source with
      | none => .panic
      | some src => .ok (st.setAccount pad.source (src.adjustSubtract b.cur margin))
          (.balance { raw := b }, booked')
  | _ => .panic

/-- `balance`: accumulator.rs:382-479. Returns also the booked directives, which it mutates. -/
def State.balance (env : Env L) (st : State L) (b : Raw.Balance) (e : ElementIdx)
    (booked : List Booked.Directive) : Res (State L) (Booked.Variant × List Booked.Directive) :=
  let margin := calculateBalanceMargin b.units (effectiveTolerance env b) (st.totalRollupUnits env b.acc b.cur)
  match st.getValidAccount b.acc e with
  | .err x => .err st x
  | .panic => .panic
  | .ok a =>
    match a.validateCurrency b.cur e with
    | some x => .err st x
    | none =>
      let a' := a.advance booked.length
      match margin with
      | none => .ok (st.setAccount b.acc a')
          (.balance { raw := b, unusedPad := a.pad.map fun p => p.2 }, booked)
      | some margin =>
        match a.pad with
        | none => .ok (st.setAccount b.acc (a'.adjustAdd b.cur margin))
            (.balance { raw := b, margin := some margin }, booked)
        | some (padIdx, _) =>
          (st.setAccount b.acc (a'.adjustAdd b.cur margin)).fillPad b margin padIdx booked

/-- The rows of a balance report, with running total: accumulator.rs:512-530.
`total` accumulates over all the postings of a transaction, whatever their currency. -/
def diagnosePostings (base : Str) (date : Date) (description : Option Str) :
    Dec → List Booked.Posting → Dec × List (Date × Str × Str × Dec × Dec × Option Str)
  | total, [] => (total, [])
  | total, p :: ps =>
    if isNonstrictSubaccount base p.acc then
      let total' := total.add p.units
      let r := diagnosePostings base date description total' ps
      (r.1, (date, p.acc, p.acc.drop base.length, p.units, total', description) :: r.2)
    else diagnosePostings base date description total ps

/-- The loop over the directives of the window: accumulator.rs:512-530. -/
def diagnose (base : Str) :
    Dec → List Booked.Directive → Dec × List (Date × Str × Str × Dec × Dec × Option Str)
  | total, [] => (total, [])
  | total, d :: ds =>
    match d.variant with
    | .transaction t =>
      let r := diagnosePostings base d.date (t.payee.orElse fun _ => t.narration) total t.postings
      let r' := diagnose base r.1 ds
      (r'.1, r.2 ++ r'.2)
    | _ => diagnose base total ds

/-- The initial total of a balance report: accumulator.rs:495-509. -/
def reportBase (cur : Str) (w : Window) (booked : List Booked.Directive) : Dec :=
  match booked[w.start]? with
  | some ⟨_, _, _, _, _, .balance bal⟩ => if bal.raw.cur = cur then bal.raw.units else Dec.zero
  | _ => Dec.zero

/-- `balance_report`: accumulator.rs:481-563; `none` is a panic. -/
def State.balanceReport (st : State L) (base : Str) (margin : Dec) (cur : Str) (e : ElementIdx)
    (booked : List Booked.Directive) : Option IndexedReport :=
  match st.accounts.get base with
  | none => none
  | some a => match a.window with
    | none => none
    | some w =>
      if w.start ≤ w.stop ∧ w.stop ≤ booked.length then
        let r := diagnose base (reportBase cur w booked) ((booked.take w.stop).drop w.start)
        let multiple := decide (1 < ((r.2.map fun x => x.2.1).eraseDups).length)
        some { reason := .accumulated r.1 margin cur
               idx := e
               annotation := some (r.2.map fun (date, _, rel, units, total, description) =>
                 { date := date, acc := if multiple then some rel else none,
                   units := units, total := total, description := description }) }
      else none

/-- `open`: accumulator.rs:565-619. -/
def State.opn (env : Env L) (st : State L) (o : Raw.Open) (e : ElementIdx) : Res (State L) Booked.Variant :=
  match st.opened.get o.acc with
  | some prev => .err st ((e.report .alreadyOpened).relatedTo prev)
  | none =>
    let st := { st with opened := st.opened.set o.acc e }
    match st.closed.get o.acc with
    | some closed => .err st ((e.report .accountClosed).relatedTo closed)
    | none =>
      let booking := o.booking.getD env.defaultBooking
      let w1 := if L.supported booking then [] else [e.report (.bookingUnsupported booking L.dflt)]
      let booking' := if L.supported booking then booking else L.dflt
      let w2 := match o.booking with
        | some b => if L.supported b then [] else [e.report .bookingUnsupportedExplicit]
        | none => []
      .ok { st with
            accounts := st.accounts.set o.acc (Account.new (o.currencies.getD []) booking' e)
            warnings := st.warnings ++ w1 ++ w2 }
        (.opn o)

/-- `close`: accumulator.rs:621-649. -/
def State.close (st : State L) (c : Raw.Close) (e : ElementIdx) : Res (State L) Booked.Variant :=
  match st.opened.get c.acc with
  | some _ => match st.closed.get c.acc with
    | some closed => .err st ((e.report .alreadyClosed).relatedTo closed)
    | none => .ok { st with opened := st.opened.del c.acc, closed := st.closed.set c.acc e } (.close c)
  | none => .err st (e.report .accountNotOpen)

/-- `pad`: accumulator.rs:651-687. -/
def State.pad (st : State L) (p : Raw.Pad) (idx : Nat) (e : ElementIdx) :
    Res (State L) (Booked.Variant × Booked.Variant) :=
  match st.getValidAccount p.acc e with
  | .err x => .err st x
  | .panic => .panic
  | .ok a =>
    match a.pad with
    | some (_, unused) => .err (st.setAccount p.acc { a with pad := none })
        ((unused.report .unusedSecondPad).relatedTo e)
    | none => .ok (st.setAccount p.acc { a with pad := some (idx, e) })
        (.pad p, .transaction { flag := padFlag, postings := [] })

/-- What `directive` returns on success: the variant, an optional second variant, and the booked directives so far,
which it may have mutated. -/
abbrev Stepped := Booked.Variant × Option Booked.Variant × List Booked.Directive

/-- Combine a plain result with the untouched booked directives. -/
def Res.plain (booked : List Booked.Directive) : Res (State L) Booked.Variant → Res (State L) Stepped
  | .ok st v => .ok st (v, none, booked)
  | .err st e => .err st e
  | .panic => .panic

/-- `directive`: accumulator.rs:140-175. -/
def State.directive (env : Env L) (st : State L) (d : Raw.Directive) (e : ElementIdx)
    (booked : List Booked.Directive) : Res (State L) Stepped :=
  match d.variant with
  | .transaction t => (st.transaction env t d.date e).plain booked
  | .price p => .ok st (.price p, none, booked)
  | .balance b => match st.balance env b e booked with
    | .ok st' (v, booked') => .ok st' (v, none, booked')
    | .err st' x => .err st' x
    | .panic => .panic
  | .opn o => (st.opn env o e).plain booked
  | .close c => (st.close c e).plain booked
  | .commodity c => .ok st (.commodity c, none, booked)
  | .pad p => match st.pad p booked.length e with
    | .ok st' (v, v') => .ok st' (v, some v', booked)
    | .err st' x => .err st' x
    | .panic => .panic
  | .document x => .ok st (.document x, none, booked)
  | .note x => .ok st (.note x, none, booked)
  | .event x => .ok st (.event x, none, booked)
  | .query x => .ok st (.query x, none, booked)
  | .custom x => .ok st (.custom x, none, booked)

/-- The loop variables of `collect`: accumulator.rs:82-83. -/
structure Run (L : BookLib) where
  st : State L := {}
  booked : List Booked.Directive := []
  errors : List IndexedReport := []

/-- A booked directive from its raw directive: accumulator.rs:111-129. -/
def mkBooked (idx : Nat) (raw : Raw.Directive) (v : Booked.Variant) : Booked.Directive :=
  { idx := idx, date := raw.date, tags := raw.tags, links := raw.links, metadata := raw.metadata, variant := v }

/-- The errors recorded for a successfully booked directive: accumulator.rs:89-109; `none` is a panic. -/
def balanceErrors (st : State L) (e : ElementIdx) (booked : List Booked.Directive) (v : Booked.Variant) :
    Option (List IndexedReport) :=
  match v with
  | .balance bal =>
    let e1 := match bal.unusedPad with
      | some p => [p.report .unusedNoAdjustment]
      | none => []
    match bal.margin with
    | some margin => match st.balanceReport bal.raw.acc margin bal.raw.cur e booked with
      | some r => some (e1 ++ [r])
      | none => none
    | none => some e1
  | _ => some []

/-- One iteration of `collect`: accumulator.rs:85-135; `none` is a panic. -/
def Run.step (env : Env L) (idx : Nat) (raw : Raw.Directive) (r : Run L) : Option (Run L) :=
  let e : ElementIdx := { directive := idx }
  match r.st.directive env raw e r.booked with
  | .ok st (v, v2, booked) =>
    match balanceErrors st e booked v with
    | none => none
    | some errs => some
      { st := st
        booked := booked ++ [mkBooked idx raw v] ++ (v2.map (mkBooked idx raw)).toList
        errors := r.errors ++ errs }
  | .err st x => some { st := st, booked := r.booked, errors := r.errors ++ [x] }
  | .panic => none

/-- The loop of `collect`: accumulator.rs:85-135; `none` is a panic. -/
def Run.loop (env : Env L) : Nat → List Raw.Directive → Run L → Option (Run L)
  | _, [], r => some r
  | idx, raw :: rest, r => match r.step env idx raw with
    | some r' => Run.loop env (idx + 1) rest r'
    | none => none

/-- What booking answers: accumulator.rs:30-37; a panic kills the server. -/
inductive Outcome
  | success (directives : List Booked.Directive) (warnings : List IndexedReport)
  | failure (errors : List IndexedReport)
  | panic
deriving DecidableEq

/-- The reports on unused pads at the end: accumulator.rs:62-66. -/
def State.leftOverPads (env : Env L) (st : State L) : List IndexedReport :=
  (env.order st.accounts).filterMap fun ca => ca.2.pad.map fun p => p.2.report .unusedNoBalance

/-- `validate`: accumulator.rs:52-76. -/
def Run.validate (env : Env L) (r : Run L) : Outcome :=
  let errors := r.errors ++ r.st.leftOverPads env
  if errors.isEmpty then .success r.booked r.st.warnings else .failure errors

/-- `collect`: accumulator.rs:78-138. -/
def collect (env : Env L) (directives : List Raw.Directive) : Outcome :=
  match Run.loop env 0 directives {} with
  | some r => r.validate env
  | none => .panic

/-- The options which booking reads. -/
structure BookOptions where
  bookingMethod : Option Booking := none
  tolerance : Tolerance := {}
deriving DecidableEq

/-- The default booking method: rust/src/api/booking.rs:11-25. -/
def defaultBooking (L : BookLib) (o : BookOptions) : Booking :=
  match o.bookingMethod with
  | some b => if L.supported b then b else L.dflt
  | none => L.dflt

/-- The accumulator's constants for given options: rust/src/api/booking.rs:11-29. -/
def envOf (L : BookLib) (o : BookOptions)
    (order : AMap Str (Account L) → AMap Str (Account L)) : Env L :=
  { defaultBooking := defaultBooking L o, tolerance := o.tolerance, order := order }

/-- `book`: rust/src/api/booking.rs:3-30. -/
def book (L : BookLib) (order : AMap Str (Account L) → AMap Str (Account L)) (o : BookOptions)
    (directives : List Raw.Directive) : Outcome :=
  collect (envOf L o order) directives

end
end Limabean
