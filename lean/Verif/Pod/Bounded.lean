/-
The accumulator with decimals of limited size: rust/src/api/booking/accumulator.rs:356-563, 698-706.

`Pod/Accumulator` computes exactly. Here are those of its functions which compute with decimals, again, with the operations of a parameter
(`Arith`); all others are shared. What the booking library computes by itself stays with the parameter `BookLib`.
-/
import Verif.Pod.Accumulator
import Verif.Pod.Decimal

namespace Limabean

section
variable {L : BookLib}

/-- `Iterator::sum`, from the left. -/
def Arith.sumFrom (A : Arith) : Dec → List Dec → Option Dec
  | t, [] => some t
  | t, x :: xs => match A.add t x with
    | some t' => A.sumFrom t' xs
    | none => none

/-- `total_rollup_units_for_currency`: accumulator.rs:356-380. -/
def State.totalIn (A : Arith) (env : Env L) (st : State L) (base cur : Str) : Option Dec :=
  A.sumFrom Dec.zero (((env.order st.accounts).filter fun ca => isNonstrictSubaccount base ca.1).map
    fun ca => L.units ca.2.positions cur)

/-- The tolerance of a balance directive: accumulator.rs:391-402. -/
def toleranceIn (A : Arith) (env : Env L) (b : Raw.Balance) : Option Dec :=
  match b.tolerance with
  | some t => some t
  | none =>
    if b.units.s > 0 then
      match A.mul (Dec.mk 1 b.units.s) (env.tolerance.multiplier.getD (Dec.mk 5 1)) with
      | some t => A.mul t Dec.two
      | none => none
    else some Dec.zero

/-- The margin of a balance directive, `some none` if there is none: accumulator.rs:391-407, 698-706. -/
def State.marginIn (A : Arith) (env : Env L) (st : State L) (b : Raw.Balance) : Option (Option Dec) :=
  match toleranceIn A env b with
  | none => none
  | some tolerance => match st.totalIn A env b.acc b.cur with
    | none => none
    | some total => match A.sub b.units total with
      | none => none
      | some margin => some (if margin.abs.gt tolerance then some margin else none)

/-- `balance` once the margin is known: accumulator.rs:409-479. -/
def State.balanceWith (st : State L) (margin : Option Dec) (b : Raw.Balance) (e : ElementIdx)
    (booked : List Booked.Directive) : Res (State L) (Booked.Variant × List Booked.Directive) :=
  match st.getValidAccount b.acc e with
  | .err x => .err st x
  | .panic => .panic
  | .ok a =>
    match a.validateCurrency b.cur e with
    | some x => .err st x
    | none =>
      let a' := a.advance booked.length
      match margin with
      | none => .ok (st.setAccount b.acc a')
          (.balance { raw := b, unusedPad := a.pad.map fun p => p.2 }, booked)
      | some margin =>
        match a.pad with
        | none => .ok (st.setAccount b.acc (a'.adjustAdd b.cur margin))
            (.balance { raw := b, margin := some margin }, booked)
        | some (padIdx, _) =>
          (st.setAccount b.acc (a'.adjustAdd b.cur margin)).fillPad b margin padIdx booked

/-- `balance`: accumulator.rs:382-479. -/
def State.balanceIn (A : Arith) (env : Env L) (st : State L) (b : Raw.Balance) (e : ElementIdx)
    (booked : List Booked.Directive) : Res (State L) (Booked.Variant × List Booked.Directive) :=
  match st.marginIn A env b with
  | none => .panic
  | some margin => st.balanceWith margin b e booked

/-- `directive`: accumulator.rs:140-175. -/
def State.directiveIn (A : Arith) (env : Env L) (st : State L) (d : Raw.Directive) (e : ElementIdx)
    (booked : List Booked.Directive) : Res (State L) Stepped :=
  match d.variant with
  | .balance b => match st.balanceIn A env b e booked with
    | .ok st' (v, booked') => .ok st' (v, none, booked')
    | .err st' x => .err st' x
    | .panic => .panic
  | _ => st.directive env d e booked

/-- The rows of a balance report: accumulator.rs:512-530; `none` is a panic. -/
def diagnosePostingsIn (A : Arith) (base : Str) (date : Date) (description : Option Str) :
    Dec → List Booked.Posting → Option (Dec × List (Date × Str × Str × Dec × Dec × Option Str))
  | total, [] => some (total, [])
  | total, p :: ps =>
    if isNonstrictSubaccount base p.acc then
      match A.add total p.units with
      | none => none
      | some total' => match diagnosePostingsIn A base date description total' ps with
        | none => none
        | some r => some (r.1, (date, p.acc, p.acc.drop base.length, p.units, total', description) :: r.2)
    else diagnosePostingsIn A base date description total ps

/-- The loop over the directives of the window: accumulator.rs:512-530. -/
def diagnoseIn (A : Arith) (base : Str) :
    Dec → List Booked.Directive → Option (Dec × List (Date × Str × Str × Dec × Dec × Option Str))
  | total, [] => some (total, [])
  | total, d :: ds =>
    match d.variant with
    | .transaction t =>
      match diagnosePostingsIn A base d.date (t.payee.orElse fun _ => t.narration) total t.postings with
      | none => none
      | some r => match diagnoseIn A base r.1 ds with
        | none => none
        | some r' => some (r'.1, r.2 ++ r'.2)
    | _ => diagnoseIn A base total ds

/-- `balance_report`: accumulator.rs:481-563; `none` is a panic. -/
def State.balanceReportIn (A : Arith) (st : State L) (base : Str) (margin : Dec) (cur : Str) (e : ElementIdx)
    (booked : List Booked.Directive) : Option IndexedReport :=
  match st.accounts.get base with
  | none => none
  | some a => match a.window with
    | none => none
    | some w =>
      if w.start ≤ w.stop ∧ w.stop ≤ booked.length then
        match diagnoseIn A base (reportBase cur w booked) ((booked.take w.stop).drop w.start) with
        | none => none
        | some r =>
          let multiple := decide (1 < ((r.2.map fun x => x.2.1).eraseDups).length)
          some { reason := .accumulated r.1 margin cur
                 idx := e
                 annotation := some (r.2.map fun (date, _, rel, units, total, description) =>
                   { date := date, acc := if multiple then some rel else none,
                     units := units, total := total, description := description }) }
      else none

/-- The errors recorded for a successfully booked directive: accumulator.rs:89-109; `none` is a panic. -/
def balanceErrorsIn (A : Arith) (st : State L) (e : ElementIdx) (booked : List Booked.Directive) (v : Booked.Variant) :
    Option (List IndexedReport) :=
  match v with
  | .balance bal =>
    let e1 := match bal.unusedPad with
      | some p => [p.report .unusedNoAdjustment]
      | none => []
    match bal.margin with
    | some margin => match st.balanceReportIn A bal.raw.acc margin bal.raw.cur e booked with
      | some r => some (e1 ++ [r])
      | none => none
    | none => some e1
  | _ => some []

/-- One iteration of `collect`: accumulator.rs:85-135; `none` is a panic. -/
def Run.stepIn (A : Arith) (env : Env L) (idx : Nat) (raw : Raw.Directive) (r : Run L) : Option (Run L) :=
  let e : ElementIdx := { directive := idx }
  match r.st.directiveIn A env raw e r.booked with
  | .ok st (v, v2, booked) =>
    match balanceErrorsIn A st e booked v with
    | none => none
    | some errs => some
      { st := st
        booked := booked ++ [mkBooked idx raw v] ++ (v2.map (mkBooked idx raw)).toList
        errors := r.errors ++ errs }
  | .err st x => some { st := st, booked := r.booked, errors := r.errors ++ [x] }
  | .panic => none

/-- The loop of `collect`: accumulator.rs:85-135; `none` is a panic. -/
def Run.loopIn (A : Arith) (env : Env L) : Nat → List Raw.Directive → Run L → Option (Run L)
  | _, [], r => some r
  | idx, raw :: rest, r => match r.stepIn A env idx raw with
    | some r' => Run.loopIn A env (idx + 1) rest r'
    | none => none

/-- `collect`: accumulator.rs:78-138. -/
def collectIn (A : Arith) (env : Env L) (directives : List Raw.Directive) : Outcome :=
  match Run.loopIn A env 0 directives {} with
  | some r => r.validate env
  | none => .panic

/-- `book`, with decimals of limited size: rust/src/api/booking.rs:3-30. -/
def bookIn (A : Arith) (L : BookLib) (order : AMap Str (Account L) → AMap Str (Account L)) (o : BookOptions)
    (directives : List Raw.Directive) : Outcome :=
  collectIn A (envOf L o order) directives

end
end Limabean
