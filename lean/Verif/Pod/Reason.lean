/-
The texts of the reasons of booking: rust/src/api/booking/accumulator.rs.
-/
import Verif.Pod.Types

namespace Limabean

/-- A digit. -/
def decimalDigit (n : Nat) : Char := Char.ofNat (48 + n % 10)

/-- The digits of a number, the lowest last. -/
def decimalDigitsFuel : Nat → Nat → Str
  | 0, _ => []
  | fuel + 1, n => (if n < 10 then [] else decimalDigitsFuel fuel (n / 10)) ++ [decimalDigit n]

/-- `Display` of `usize`. -/
def decimalDigits (n : Nat) : Str := decimalDigitsFuel (n + 1) n

/-- `Display` of `rust_decimal::Decimal`: the sign, the digits with as many decimal places as the scale says, never an exponent. Zero with
a sign is not modelled. -/
def Dec.display (d : Dec) : Str :=
  let coeff := decimalDigits d.m.natAbs
  (if d.m < 0 then ['-'] else []) ++
    if d.s = 0 then coeff
    else if coeff.length ≤ d.s then str% "0." ++ List.replicate (d.s - coeff.length) '0' ++ coeff
    else coeff.take (coeff.length - d.s) ++ ['.'] ++ coeff.drop (coeff.length - d.s)

/-- The text of a reason: rust/src/api/booking/accumulator.rs:64,97,302,307,322,324,532,575,583,593,614,634,644,672,805. `method` is
`Display` of `limabean_booking::Booking`. -/
def Reason.text (method : Booking → Str) : Reason → Str
  | .unusedNoBalance => str% "unused, no balance directive"
  | .unusedNoAdjustment => str% "unused, no balance adjustment required"
  | .unusedSecondPad => str% "unused, second pad encountered"
  | .accountClosed => str% "account was closed"
  | .accountNotOpen => str% "account not open"
  | .alreadyOpened => str% "account already opened"
  | .alreadyClosed => str% "account was already closed"
  | .currencyIncompatible => str% "currency incompatible with account"
  | .library t => t
  | .libraryPosting t i => t ++ str% " on posting " ++ decimalDigits i
  | .accumulated total margin cur => str% "accumulated " ++ total.display ++ str% ", error " ++ margin.display ++ str% " " ++ cur
  | .bookingUnsupported b d => str% "booking method " ++ method b ++ str% " unsupported, falling back to default " ++ method d
  | .bookingUnsupportedExplicit => str% "booking method {} unsupported, falling back to default"

end Limabean
