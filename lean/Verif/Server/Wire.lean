/-
The wire format of the server's data: rust/src/api/types/serializers.rs, the serde attributes in
rust/src/api/types/raw.rs and rust/src/api/types.rs.
-/
import Verif.Server.Json
import Verif.Pod.Types

namespace Limabean
namespace Wire

open Json

/-- A decimal digit. -/
def digit (n : Nat) : Char := Char.ofNat (48 + n % 10)

/-- The value of a decimal digit. -/
def undigit (c : Char) : Option Nat := if c.isDigit then some (c.toNat - 48) else none

/-- Length of a month, for the validation in `time::Date`. -/
def monthDays (y m : Nat) : Nat :=
  if m = 2 then (if y % 4 = 0 ∧ (y % 100 ≠ 0 ∨ y % 400 = 0) then 29 else 28)
  else if m = 4 ∨ m = 6 ∨ m = 9 ∨ m = 11 then 30 else 31

/-- A date which `time::Date` can represent (years before 0 are not modelled). -/
def validDate (d : Date) : Bool :=
  decide (d.y ≤ 9999 ∧ 1 ≤ d.m ∧ d.m ≤ 12 ∧ 1 ≤ d.d ∧ d.d ≤ monthDays d.y d.m)

/-- `fmt_iso8601date`: rust/src/api/types.rs:106-109. -/
def fmtDate (d : Date) : Str :=
  [digit (d.y / 1000), digit (d.y / 100), digit (d.y / 10), digit d.y, '-',
   digit (d.m / 10), digit d.m, '-', digit (d.d / 10), digit d.d]

/-- `parse_iso8601date`: rust/src/api/types.rs:112-115. -/
def parseDate (s : Str) : Option Date :=
  match s with
  | [y3, y2, y1, y0, '-', m1, m0, '-', d1, d0] =>
    match undigit y3, undigit y2, undigit y1, undigit y0, undigit m1, undigit m0, undigit d1, undigit d0 with
    | some y3, some y2, some y1, some y0, some m1, some m0, some d1, some d0 =>
      let d : Date := { y := 1000 * y3 + 100 * y2 + 10 * y1 + y0, m := 10 * m1 + m0, d := 10 * d1 + d0 }
      if validDate d then some d else none
    | _, _, _, _, _, _, _, _ => none
  | _ => none

/-- A date field: `iso8601date`, rust/src/api/types.rs:117. -/
def encDate (d : Date) : Json := .str (fmtDate d)

/-- A date field: `iso8601date`, rust/src/api/types.rs:117. -/
def decDate : Json → Option Date
  | .str s => parseDate s
  | _ => none

/-- `Serialize for Span`: rust/src/api/types/serializers.rs:129-140. -/
def encSpan (s : Span) : Json := .arr [nat s.source, nat s.start, nat s.stop]

/-- `Deserialize for Span`: rust/src/api/types/serializers.rs:142-180. -/
def decSpan : Json → Option Span
  | .arr [a, b, c] => match toNat a, toNat b, toNat c with
    | some a, some b, some c => some ⟨a, b, c⟩
    | _, _, _ => none
  | _ => none

/-- `Serialize for MetaValue`: rust/src/api/types/serializers.rs:12-43, keys from 198-212. -/
def encMeta : MetaValue → Json
  | .null => .null
  | .amount u c => .obj [(str% "units", .num u), (str% "cur", .str c)]
  | .string s => .obj [(str% "string", .str s)]
  | .currency c => .obj [(str% "cur", .str c)]
  | .account a => .obj [(str% "acc", .str a)]
  | .tag t => .obj [(str% "tag", .str t)]
  | .link l => .obj [(str% "link", .str l)]
  | .date d => .obj [(str% "date", .str (fmtDate d))]
  | .bool b => .obj [(str% "bool", .bool b)]
  | .number n => .obj [(str% "number", .num n)]

/-- `Deserialize for MetaValue`: rust/src/api/types/serializers.rs:45-127. A map with further entries is refused by
the deserializer. -/
def decMeta : Json → Option MetaValue
  | .null => some .null
  | .obj [(k, v)] =>
    if k = str% "cur" then (toRef v).map .currency
    else if k = str% "string" then (toStr v).map .string
    else if k = str% "acc" then (toRef v).map .account
    else if k = str% "tag" then (toRef v).map .tag
    else if k = str% "link" then (toRef v).map .link
    else if k = str% "date" then (match toRef v with
      | some s => (parseDate s).map .date
      | none => none)
    else if k = str% "bool" then (toBool v).map .bool
    else if k = str% "number" then (toDec v).map .number
    else none
  | .obj [(k, v), (k', v')] =>
    if k = str% "units" ∧ k' = str% "cur" then (match toDec v, toRef v' with
      | some u, some c => some (.amount u c)
      | _, _ => none)
    else if k = str% "cur" ∧ k' = str% "units" then (match toRef v, toDec v' with
      | some c, some u => some (.amount u c)
      | _, _ => none)
    else none
  | _ => none

/-- `HashSet<&str>`. -/
def encSet (l : List Str) : Json := .arr (l.map .str)

/-- `HashSet<&str>`. -/
def decSet (j : Json) : Option (List Str) := (toList toRef j).map List.dedup

/-- `HashMap<&str, MetaValue>`. -/
def encMetadata (l : List (Str × MetaValue)) : Json := .obj (l.map fun p => (p.1, encMeta p.2))

/-- `HashMap<&str, MetaValue>`. -/
def decMetadata : Json → Option (List (Str × MetaValue)) := toMap decMeta

/-- `Booking`: rust/src/api/types/raw.rs:291-302. -/
def encBooking : Booking → Json
  | .strict => .str (str% "strict")
  | .strictWithSize => .str (str% "strict-with-size")
  | .none => .str (str% "none")
  | .average => .str (str% "average")
  | .fifo => .str (str% "fifo")
  | .lifo => .str (str% "lifo")
  | .hifo => .str (str% "hifo")

/-- `Booking`: rust/src/api/types/raw.rs:291-302. -/
def decBooking : Json → Option Booking
  | .str s =>
    if s = str% "strict" then some .strict
    else if s = str% "strict-with-size" then some .strictWithSize
    else if s = str% "none" then some .none
    else if s = str% "average" then some .average
    else if s = str% "fifo" then some .fifo
    else if s = str% "lifo" then some .lifo
    else if s = str% "hifo" then some .hifo
    else none
  | _ => none

/-- `CostSpec`: rust/src/api/types/raw.rs:187-206. -/
def encCostSpec (c : Raw.CostSpec) : Json :=
  .obj (entry (str% "per-unit") c.perUnit .num ++ entry (str% "total") c.total .num ++ entry (str% "cur") c.cur .str ++
    entry (str% "date") c.date encDate ++ entry (str% "label") c.label .str ++
    entry (str% "merge") (if c.merge then some () else none) (fun _ => .bool true))

/-- `CostSpec`: rust/src/api/types/raw.rs:187-206. -/
def decCostSpec : Json → Option Raw.CostSpec
  | .obj l => do
    let perUnit ← opt l (str% "per-unit") toDec
    let total ← opt l (str% "total") toDec
    let cur ← opt l (str% "cur") toRef
    let date ← opt l (str% "date") decDate
    let label ← opt l (str% "label") toStr
    let merge ← dfltFalse l (str% "merge")
    return { perUnit := perUnit, total := total, cur := cur, date := date, label := label, merge := merge }
  | _ => none

/-- `PriceSpec`: rust/src/api/types/raw.rs:208-217. -/
def encPriceSpec (p : Raw.PriceSpec) : Json :=
  .obj (entry (str% "per-unit") p.perUnit .num ++ entry (str% "total") p.total .num ++ entry (str% "cur") p.cur .str)

/-- `PriceSpec`: rust/src/api/types/raw.rs:208-217. -/
def decPriceSpec : Json → Option Raw.PriceSpec
  | .obj l => do
    let perUnit ← opt l (str% "per-unit") toDec
    let total ← opt l (str% "total") toDec
    let cur ← opt l (str% "cur") toRef
    return { perUnit := perUnit, total := total, cur := cur }
  | _ => none

/-- `Price`: rust/src/api/types/raw.rs:219-227. -/
def encPrice (p : Raw.Price) : Json :=
  .obj ([(str% "per-unit", .num p.perUnit)] ++ entry (str% "total") p.total .num ++ [(str% "cur", .str p.cur)])

/-- `Price`: rust/src/api/types/raw.rs:219-227. -/
def decPrice : Json → Option Raw.Price
  | .obj l => do
    let perUnit ← req l (str% "per-unit") toDec
    let total ← opt l (str% "total") toDec
    let cur ← req l (str% "cur") toRef
    return { perUnit := perUnit, total := total, cur := cur }
  | _ => none

/-- `PostingSpec`: rust/src/api/types/raw.rs:161-185. -/
def encPosting (p : Raw.PostingSpec) : Json :=
  .obj (entry (str% "span") p.span encSpan ++ entry (str% "flag") p.flag .str ++ [(str% "acc", .str p.acc)] ++
    entry (str% "units") p.units .num ++ entry (str% "cur") p.cur .str ++
    entry (str% "cost-spec") p.costSpec encCostSpec ++ entry (str% "price-spec") p.priceSpec encPriceSpec ++
    entry (str% "tags") p.tags encSet ++ entry (str% "links") p.links encSet ++
    entry (str% "metadata") p.metadata encMetadata)

/-- `PostingSpec`: rust/src/api/types/raw.rs:161-185. -/
def decPosting : Json → Option Raw.PostingSpec
  | .obj l => do
    let span ← opt l (str% "span") decSpan
    let flag ← opt l (str% "flag") toStr
    let acc ← req l (str% "acc") toRef
    let units ← opt l (str% "units") toDec
    let cur ← opt l (str% "cur") toRef
    let costSpec ← opt l (str% "cost-spec") decCostSpec
    let priceSpec ← opt l (str% "price-spec") decPriceSpec
    let tags ← opt l (str% "tags") decSet
    let links ← opt l (str% "links") decSet
    let metadata ← opt l (str% "metadata") decMetadata
    return { span := span, flag := flag, acc := acc, units := units, cur := cur, costSpec := costSpec,
             priceSpec := priceSpec, tags := tags, links := links, metadata := metadata }
  | _ => none

/-- `DirectiveVariant` with its tag `dct`: rust/src/api/types/raw.rs:31-159. -/
def encVariant : Raw.Variant → List (Str × Json)
  | .transaction t => [(str% "dct", .str (str% "txn")), (str% "flag", .str t.flag)] ++
      entry (str% "payee") t.payee .str ++ entry (str% "narration") t.narration .str ++
      [(str% "postings", .arr (t.postings.map encPosting))]
  | .price p => [(str% "dct", .str (str% "price")), (str% "cur", .str p.cur), (str% "price", encPrice p.price)]
  | .balance b => [(str% "dct", .str (str% "balance")), (str% "acc", .str b.acc), (str% "units", .num b.units),
      (str% "cur", .str b.cur)] ++ entry (str% "tolerance") b.tolerance .num
  | .opn o => [(str% "dct", .str (str% "open")), (str% "acc", .str o.acc)] ++
      entry (str% "currencies") o.currencies encSet ++ entry (str% "booking") o.booking encBooking
  | .close c => [(str% "dct", .str (str% "close")), (str% "acc", .str c.acc)]
  | .commodity c => [(str% "dct", .str (str% "commodity")), (str% "cur", .str c.cur)]
  | .pad p => [(str% "dct", .str (str% "pad")), (str% "acc", .str p.acc), (str% "source", .str p.source)]
  | .document d => [(str% "dct", .str (str% "document")), (str% "acc", .str d.acc), (str% "path", .str d.path)]
  | .note n => [(str% "dct", .str (str% "note")), (str% "acc", .str n.acc), (str% "comment", .str n.comment)]
  | .event e => [(str% "dct", .str (str% "event")), (str% "type", .str e.type_),
      (str% "description", .str e.description)]
  | .query q => [(str% "dct", .str (str% "query")), (str% "name", .str q.name), (str% "content", .str q.content)]
  | .custom c => [(str% "dct", .str (str% "custom")), (str% "type", .str c.type_),
      (str% "values", .arr (c.values.map encMeta))]

/-- `DirectiveVariant` with its tag `dct`: rust/src/api/types/raw.rs:31-159. -/
def decVariant (l : List (Str × Json)) : Option Raw.Variant :=
  match req l (str% "dct") toStr with
  | none => none
  | some dct =>
    if dct = str% "txn" then do
      let flag ← req l (str% "flag") toStr
      let payee ← opt l (str% "payee") toStr
      let narration ← opt l (str% "narration") toStr
      let postings ← req l (str% "postings") (toList decPosting)
      return .transaction { flag := flag, payee := payee, narration := narration, postings := postings }
    else if dct = str% "price" then do
      let cur ← req l (str% "cur") toRef
      let price ← req l (str% "price") decPrice
      return .price { cur := cur, price := price }
    else if dct = str% "balance" then do
      let acc ← req l (str% "acc") toRef
      let units ← req l (str% "units") toDec
      let cur ← req l (str% "cur") toRef
      let tolerance ← opt l (str% "tolerance") toDec
      return .balance { acc := acc, units := units, cur := cur, tolerance := tolerance }
    else if dct = str% "open" then do
      let acc ← req l (str% "acc") toRef
      let currencies ← opt l (str% "currencies") decSet
      let booking ← opt l (str% "booking") decBooking
      return .opn { acc := acc, currencies := currencies, booking := booking }
    else if dct = str% "close" then do
      let acc ← req l (str% "acc") toRef
      return .close { acc := acc }
    else if dct = str% "commodity" then do
      let cur ← req l (str% "cur") toRef
      return .commodity { cur := cur }
    else if dct = str% "pad" then do
      let acc ← req l (str% "acc") toRef
      let source ← req l (str% "source") toRef
      return .pad { acc := acc, source := source }
    else if dct = str% "document" then do
      let acc ← req l (str% "acc") toRef
      let path ← req l (str% "path") toStr
      return .document { acc := acc, path := path }
    else if dct = str% "note" then do
      let acc ← req l (str% "acc") toRef
      let comment ← req l (str% "comment") toStr
      return .note { acc := acc, comment := comment }
    else if dct = str% "event" then do
      let type_ ← req l (str% "type") toStr
      let description ← req l (str% "description") toStr
      return .event { type_ := type_, description := description }
    else if dct = str% "query" then do
      let name ← req l (str% "name") toStr
      let content ← req l (str% "content") toStr
      return .query { name := name, content := content }
    else if dct = str% "custom" then do
      let type_ ← req l (str% "type") toStr
      let values ← req l (str% "values") (toList decMeta)
      return .custom { type_ := type_, values := values }
    else none

/-- `Directive`: rust/src/api/types/raw.rs:13-29. -/
def encDirective (d : Raw.Directive) : Json :=
  .obj (entry (str% "span") d.span encSpan ++ [(str% "date", encDate d.date)] ++
    entry (str% "tags") d.tags encSet ++ entry (str% "links") d.links encSet ++
    entry (str% "metadata") d.metadata encMetadata ++ encVariant d.variant)

/-- `Directive`: rust/src/api/types/raw.rs:13-29. -/
def decDirective : Json → Option Raw.Directive
  | .obj l => do
    let span ← opt l (str% "span") decSpan
    let date ← req l (str% "date") decDate
    let tags ← opt l (str% "tags") decSet
    let links ← opt l (str% "links") decSet
    let metadata ← opt l (str% "metadata") decMetadata
    let variant ← decVariant l
    return { span := span, date := date, tags := tags, links := links, metadata := metadata, variant := variant }
  | _ => none

/-! ### Booked directives: rust/src/api/types/booked.rs (only written) -/

/-- `booked::Cost`: rust/src/api/types/booked.rs:92-107. -/
def encCost (c : Booked.Cost) : Json :=
  .obj ([(str% "date", encDate c.date), (str% "per-unit", .num c.perUnit), (str% "total", .num c.total),
      (str% "cur", .str c.cur)] ++ entry (str% "label") c.label .str ++
    entry (str% "merge") (if c.merge then some () else none) (fun _ => .bool true))

/-- `booked::Price`: rust/src/api/types/booked.rs:125-132. -/
def encBookedPrice (p : Booked.Price) : Json :=
  .obj ([(str% "per-unit", .num p.perUnit)] ++ entry (str% "total") p.total .num ++ [(str% "cur", .str p.cur)])

/-- `booked::Posting`: rust/src/api/types/booked.rs:64-86. -/
def encBookedPosting (p : Booked.Posting) : Json :=
  .obj (entry (str% "idx") p.idx nat ++ entry (str% "flag") p.flag .str ++
    [(str% "acc", .str p.acc), (str% "units", .num p.units), (str% "cur", .str p.cur)] ++
    entry (str% "cost") p.cost encCost ++ entry (str% "price") p.price encBookedPrice ++
    entry (str% "tags") p.tags encSet ++ entry (str% "links") p.links encSet ++
    entry (str% "metadata") p.metadata encMetadata)

/-- `booked::DirectiveVariant`: rust/src/api/types/booked.rs:30-62, 134-147. The fields `unused_pad` and `margin` of a
balance are skipped. -/
def encBookedVariant : Booked.Variant → List (Str × Json)
  | .transaction t => [(str% "dct", .str (str% "txn")), (str% "flag", .str t.flag)] ++
      entry (str% "payee") t.payee .str ++ entry (str% "narration") t.narration .str ++
      [(str% "postings", .arr (t.postings.map encBookedPosting))]
  | .price p => encVariant (.price p)
  | .balance b => encVariant (.balance b.raw)
  | .opn o => encVariant (.opn o)
  | .close c => encVariant (.close c)
  | .commodity c => encVariant (.commodity c)
  | .pad p => encVariant (.pad p)
  | .document d => encVariant (.document d)
  | .note n => encVariant (.note n)
  | .event e => encVariant (.event e)
  | .query q => encVariant (.query q)
  | .custom c => encVariant (.custom c)

/-- `booked::Directive`: rust/src/api/types/booked.rs:13-28. -/
def encBookedDirective (d : Booked.Directive) : Json :=
  .obj ([(str% "idx", nat d.idx), (str% "date", encDate d.date)] ++
    entry (str% "tags") d.tags encSet ++ entry (str% "links") d.links encSet ++
    entry (str% "metadata") d.metadata encMetadata ++ encBookedVariant d.variant)

end Wire
end Limabean
