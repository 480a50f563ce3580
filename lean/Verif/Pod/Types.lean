/-
Data types of the server: rust/src/api/types.rs, rust/src/api/types/raw.rs, rust/src/api/types/booked.rs.

Simplifications: `HashSet`s and `HashMap`s in directives are lists in their (arbitrary) iteration order; the text of a
report's reason is the structured value `Reason`; the annotation table of a report is a list of rows.
-/
import Verif.Basic.Dec
import Verif.Basic.Str

namespace Limabean

/-- `time::Date`: rust/src/api/types/raw.rs:8. -/
structure Date where
  y : Nat
  m : Nat
  d : Nat
deriving DecidableEq, Repr

/-- `ElementIdx`: rust/src/api/types.rs:67-71. -/
structure ElementIdx where
  directive : Nat
  posting : Option Nat := none
deriving DecidableEq, Repr

/-- `Span`: rust/src/api/types/raw.rs:327-331. -/
structure Span where
  source : Nat
  start : Nat
  stop : Nat
deriving DecidableEq, Repr

/-- `Booking`: rust/src/api/types/raw.rs:294-302, identified with `limabean_booking::Booking` by
rust/src/api/booking/types.rs:79-94. -/
inductive Booking
  | strict | strictWithSize | none | average | fifo | lifo | hifo
deriving DecidableEq, Repr

/-- `MetaValue`: rust/src/api/types/raw.rs:231-242. -/
inductive MetaValue
  | amount (units : Dec) (cur : Str)
  | string (s : Str)
  | currency (c : Str)
  | account (a : Str)
  | tag (t : Str)
  | link (l : Str)
  | date (d : Date)
  | bool (b : Bool)
  | number (n : Dec)
  | null
deriving DecidableEq, Repr

/-- Reasons of reports: the texts at rust/src/api/booking/accumulator.rs:64,97,302,307,322,324,532,575,583,593,614,634,644,672,805. -/
inductive Reason
  /-- "unused, no balance directive" -/
  | unusedNoBalance
  /-- "unused, no balance adjustment required" -/
  | unusedNoAdjustment
  /-- "unused, second pad encountered" -/
  | unusedSecondPad
  /-- "account was closed" -/
  | accountClosed
  /-- "account not open" -/
  | accountNotOpen
  /-- "account already opened" -/
  | alreadyOpened
  /-- "account was already closed" -/
  | alreadyClosed
  /-- "currency incompatible with account" -/
  | currencyIncompatible
  /-- the booking library's error on a transaction -/
  | library (text : Str)
  /-- the booking library's error on a posting: "{e} on posting {idx}" -/
  | libraryPosting (text : Str) (posting : Nat)
  /-- "accumulated {total}, error {margin} {cur}" -/
  | accumulated (total margin : Dec) (cur : Str)
  /-- "booking method {booking} unsupported, falling back to default {default}" -/
  | bookingUnsupported (booking dflt : Booking)
  /-- "booking method {} unsupported, falling back to default" -/
  | bookingUnsupportedExplicit
deriving DecidableEq, Repr

/-- A row of the annotation table of a balance report: rust/src/api/booking/accumulator.rs:539-556. -/
structure DiagRow where
  date : Date
  acc : Option Str
  units : Dec
  total : Dec
  description : Option Str
deriving DecidableEq, Repr

/-- `IndexedReport`: rust/src/api/types.rs:41-50. -/
structure IndexedReport where
  reason : Reason
  idx : ElementIdx
  related : Option (List ElementIdx) := none
  annotation : Option (List DiagRow) := none
deriving DecidableEq, Repr

/-- `ElementIdx::report`: rust/src/api/types.rs:73-85. -/
def ElementIdx.report (e : ElementIdx) (r : Reason) : IndexedReport :=
  { reason := r, idx := e }

/-- `IndexedReport::related_to`: rust/src/api/types.rs:53-56. -/
def IndexedReport.relatedTo (r : IndexedReport) (e : ElementIdx) : IndexedReport :=
  { r with related := some (r.related.getD [] ++ [e]) }

namespace Raw

/-- `CostSpec`: rust/src/api/types/raw.rs:189-206. -/
structure CostSpec where
  perUnit : Option Dec := none
  total : Option Dec := none
  cur : Option Str := none
  date : Option Date := none
  label : Option Str := none
  merge : Bool := false
deriving DecidableEq, Repr

/-- `PriceSpec`: rust/src/api/types/raw.rs:210-217. -/
structure PriceSpec where
  perUnit : Option Dec := none
  total : Option Dec := none
  cur : Option Str := none
deriving DecidableEq, Repr

/-- `Price`: rust/src/api/types/raw.rs:222-227. -/
structure Price where
  perUnit : Dec
  total : Option Dec := none
  cur : Str
deriving DecidableEq, Repr

/-- `PostingSpec`: rust/src/api/types/raw.rs:164-185. -/
structure PostingSpec where
  span : Option Span := none
  flag : Option Str := none
  acc : Str
  units : Option Dec := none
  cur : Option Str := none
  costSpec : Option CostSpec := none
  priceSpec : Option PriceSpec := none
  tags : Option (List Str) := none
  links : Option (List Str) := none
  metadata : Option (List (Str × MetaValue)) := none
deriving DecidableEq, Repr

/-- `Transaction`: rust/src/api/types/raw.rs:56-64. -/
structure Transaction where
  flag : Str
  payee : Option Str := none
  narration : Option Str := none
  postings : List PostingSpec
deriving DecidableEq, Repr

/-- `PriceDct`: rust/src/api/types/raw.rs:69-72. -/
structure PriceDct where
  cur : Str
  price : Price
deriving DecidableEq, Repr

/-- `Balance`: rust/src/api/types/raw.rs:77-83. -/
structure Balance where
  acc : Str
  units : Dec
  cur : Str
  tolerance : Option Dec := none
deriving DecidableEq, Repr

/-- `Open`: rust/src/api/types/raw.rs:88-94. -/
structure Open where
  acc : Str
  currencies : Option (List Str) := none
  booking : Option Booking := none
deriving DecidableEq, Repr

/-- `Close`: rust/src/api/types/raw.rs:99-101. -/
structure Close where
  acc : Str
deriving DecidableEq, Repr

/-- `Commodity`: rust/src/api/types/raw.rs:106-108. -/
structure Commodity where
  cur : Str
deriving DecidableEq, Repr

/-- `Pad`: rust/src/api/types/raw.rs:113-116. -/
structure Pad where
  acc : Str
  source : Str
deriving DecidableEq, Repr

/-- `Document`: rust/src/api/types/raw.rs:121-124. -/
structure Document where
  acc : Str
  path : Str
deriving DecidableEq, Repr

/-- `Note`: rust/src/api/types/raw.rs:129-132. -/
structure Note where
  acc : Str
  comment : Str
deriving DecidableEq, Repr

/-- `Event`: rust/src/api/types/raw.rs:137-141. -/
structure Event where
  type_ : Str
  description : Str
deriving DecidableEq, Repr

/-- `Query`: rust/src/api/types/raw.rs:146-149. -/
structure Query where
  name : Str
  content : Str
deriving DecidableEq, Repr

/-- `Custom`: rust/src/api/types/raw.rs:154-159. -/
structure Custom where
  type_ : Str
  values : List MetaValue
deriving DecidableEq, Repr

/-- `DirectiveVariant`: rust/src/api/types/raw.rs:36-52. -/
inductive Variant
  | transaction (t : Transaction)
  | price (p : PriceDct)
  | balance (b : Balance)
  | opn (o : Open)
  | close (c : Close)
  | commodity (c : Commodity)
  | pad (p : Pad)
  | document (d : Document)
  | note (n : Note)
  | event (e : Event)
  | query (q : Query)
  | custom (c : Custom)
deriving DecidableEq, Repr

/-- `Directive`: rust/src/api/types/raw.rs:15-29. -/
structure Directive where
  span : Option Span := none
  date : Date
  tags : Option (List Str) := none
  links : Option (List Str) := none
  metadata : Option (List (Str × MetaValue)) := none
  variant : Variant
deriving DecidableEq, Repr

end Raw

namespace Booked

/-- `Cost`: rust/src/api/types/booked.rs:94-107. -/
structure Cost where
  date : Date
  perUnit : Dec
  total : Dec
  cur : Str
  label : Option Str := none
  merge : Bool := false
deriving DecidableEq, Repr

/-- `Price`: rust/src/api/types/booked.rs:127-132. -/
structure Price where
  perUnit : Dec
  total : Option Dec := none
  cur : Str
deriving DecidableEq, Repr

/-- `Posting`: rust/src/api/types/booked.rs:67-86. -/
structure Posting where
  idx : Option Nat := none
  flag : Option Str := none
  acc : Str
  units : Dec
  cur : Str
  cost : Option Cost := none
  price : Option Price := none
  tags : Option (List Str) := none
  links : Option (List Str) := none
  metadata : Option (List (Str × MetaValue)) := none
deriving DecidableEq, Repr

/-- `Transaction`: rust/src/api/types/booked.rs:55-62. -/
structure Transaction where
  flag : Str
  payee : Option Str := none
  narration : Option Str := none
  postings : List Posting
deriving DecidableEq, Repr

/-- `Balance`: rust/src/api/types/booked.rs:140-147. -/
structure Balance where
  raw : Raw.Balance
  unusedPad : Option ElementIdx := none
  margin : Option Dec := none
deriving DecidableEq, Repr

/-- `DirectiveVariant`: rust/src/api/types/booked.rs:35-50. -/
inductive Variant
  | transaction (t : Transaction)
  | price (p : Raw.PriceDct)
  | balance (b : Balance)
  | opn (o : Raw.Open)
  | close (c : Raw.Close)
  | commodity (c : Raw.Commodity)
  | pad (p : Raw.Pad)
  | document (d : Raw.Document)
  | note (n : Raw.Note)
  | event (e : Raw.Event)
  | query (q : Raw.Query)
  | custom (c : Raw.Custom)
deriving DecidableEq, Repr

/-- `Directive`: rust/src/api/types/booked.rs:15-28. -/
structure Directive where
  idx : Nat
  date : Date
  tags : Option (List Str) := none
  links : Option (List Str) := none
  metadata : Option (List (Str × MetaValue)) := none
  variant : Variant
deriving DecidableEq, Repr

end Booked
end Limabean
