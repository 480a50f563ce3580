/-
The external crate `limabean_booking` as a parameter, and the contract (`Lawful`) some theorems assume of it.
Its source is not part of /repo. Uses: rust/src/api/booking/accumulator.rs:205-220, 374-376, 448-449, 590, 757-762,
rust/src/api/booking.rs:11-16.
-/
import Verif.Pod.Types
import Verif.Basic.AMap

namespace Limabean

/-- The tolerance options handed to the library (`LimaTolerance`, made from the parser's options:
rust/src/api/booking.rs:27). The accumulator itself reads only the multiplier (accumulator.rs:394-397). -/
structure Tolerance where
  multiplier : Option Dec := none
  defaults : List (Option Str × Dec) := []
  fromCost : Option Bool := none
deriving DecidableEq, Repr

/-- `limabean_booking::PostingCost` with its currency: what `into_currency_costs` yields
(accumulator.rs:258-260, 860-872). -/
structure LotCost where
  cur : Str
  units : Dec
  date : Date
  perUnit : Dec
  total : Dec
  label : Option Str := none
  merge : Bool := false
deriving DecidableEq, Repr

/-- `limabean_booking::Interpolated`: accumulator.rs:249-255. -/
structure Interpolated where
  units : Dec
  currency : Str
  cost : Option (List LotCost) := none
  price : Option Booked.Price := none
deriving DecidableEq, Repr

/-- `limabean_booking::Bookings`: accumulator.rs:217-220. -/
structure Bookings (Pos : Type) where
  interpolated : List Interpolated
  updated : List (Str × Pos)

/-- `limabean_booking::BookingError`: accumulator.rs:299-309. -/
inductive BookError
  | transaction (text : Str)
  | posting (idx : Nat) (text : Str)
deriving DecidableEq, Repr

/-- The booking library. -/
structure BookLib where
  /-- `Positions` -/
  Pos : Type
  /-- `Positions::default()` -/
  empty : Pos
  /-- `positions.units().get(cur).unwrap_or(ZERO)` -/
  units : Pos → Str → Dec
  /-- `positions.accumulate(units, cur, None, booking)` -/
  accumulate : Pos → Dec → Str → Booking → Pos
  /-- `book(date, postings, tolerance, inventory, booking)` -/
  book : Date → List Raw.PostingSpec → Tolerance → (Str → Option Pos) → (Str → Booking) →
    Except BookError (Bookings Pos)
  /-- `is_supported_method` -/
  supported : Booking → Bool
  /-- `Booking::default()` -/
  dflt : Booking

/-- The units of a booked form of an interpolated posting in a given currency: lots if any, else the units themselves. -/
def Interpolated.lotUnits (i : Interpolated) : ℚ :=
  match i.cost with
  | some lots => (lots.map fun l => l.units.val).sum
  | none => i.units.val

/-- Change of an account's units in a currency that a list of interpolated postings amounts to. -/
def postingsChange (acc cur : Str) : List Raw.PostingSpec → List Interpolated → ℚ
  | p :: ps, i :: is =>
    (if p.acc = acc ∧ i.currency = cur then i.lotUnits else 0) + postingsChange acc cur ps is
  | _, _ => 0

/-- The contract assumed of the booking library, where a theorem says so. -/
structure BookLib.Lawful (L : BookLib) : Prop where
  /-- nothing is held initially -/
  units_empty : ∀ c, (L.units L.empty c).val = 0
  /-- accumulating adds units of the one currency -/
  units_accumulate : ∀ p u c b c',
    (L.units (L.accumulate p u c b) c').val = (L.units p c').val + if c' = c then u.val else 0
  /-- one interpolated posting per posting -/
  book_length : ∀ d ps t inv bk r, L.book d ps t inv bk = .ok r → r.interpolated.length = ps.length
  /-- only accounts of the transaction are updated -/
  book_accounts : ∀ d ps t inv bk r, L.book d ps t inv bk = .ok r →
    ∀ a q, (a, q) ∈ r.updated → ∃ p ∈ ps, p.acc = a
  /-- each account is updated at most once (it is a map) -/
  book_nodup : ∀ d ps t inv bk r, L.book d ps t inv bk = .ok r → (r.updated.map Prod.fst).Nodup
  /-- updated holdings are the previous holdings plus the postings -/
  book_updated : ∀ d ps t inv bk r, L.book d ps t inv bk = .ok r →
    ∀ a q, (a, q) ∈ r.updated → ∀ c,
      (L.units q c).val = (L.units ((inv a).getD L.empty) c).val + postingsChange a c ps r.interpolated
  /-- accounts which are not updated have no net change -/
  book_not_updated : ∀ d ps t inv bk r, L.book d ps t inv bk = .ok r →
    ∀ a, (∀ q, (a, q) ∉ r.updated) → ∀ c, postingsChange a c ps r.interpolated = 0
  /-- the lots of a posting add up to its units -/
  book_lots : ∀ d ps t inv bk r, L.book d ps t inv bk = .ok r →
    ∀ i ∈ r.interpolated, ∀ lots, i.cost = some lots → (lots.map fun l => l.units.val).sum = i.units.val
  /-- the default method is supported -/
  supported_dflt : L.supported L.dflt = true

end Limabean
