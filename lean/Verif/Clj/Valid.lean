/-
The specification which directives must satisfy when plugins run: clj/src/limabean/spec.clj.

`s/assert` is on while a beanfile is loaded (clj/src/limabean/adapter/loader.clj:183). `s/keys` also looks at entries with a qualified key,
of which the data modelled here have none. Of `s/and`, the second specification is given the conformed value of the first; in
`::raw-dct` and `::booked-dct` these differ only in entries at which the second does not look.
-/
import Verif.Clj.Data

namespace Limabean
namespace Clj

/-- The value of an entry. -/
def Data.find (m : Data) (k : Str) : Option Data := match m with
  | .map l => AMap.get l k
  | _ => none

/-- `string?`. -/
def isStr : Data → Bool
  | .str _ => true
  | _ => false

/-- `jt/local-date?`. -/
def isDate : Data → Bool
  | .date _ => true
  | _ => false

/-- `boolean?`. -/
def isBool : Data → Bool
  | .bool _ => true
  | _ => false

/-- `map?`. -/
def isMap : Data → Bool
  | .map _ => true
  | _ => false

/-- `decimal?`: only a big decimal. -/
def isDecimal : Data → Bool
  | .num d => d.s != 0
  | _ => false

/-- `int?`: only an integer of at most 64 bits. -/
def isInt : Data → Bool
  | .num d => d.s == 0 && decide (-2 ^ 63 ≤ d.m) && decide (d.m < 2 ^ 63)
  | _ => false

/-- `::number`, `::units`, `::per-unit`, `::total`: clj/src/limabean/spec.clj:10-13, 71-72. -/
def isNumber (x : Data) : Bool := isDecimal x || isInt x

/-- An entry of `:req-un` in `s/keys`. -/
def reqUn (m : Data) (k : Str) (p : Data → Bool) : Bool := match m.find k with
  | some v => p v
  | none => false

/-- An entry of `:opt-un` in `s/keys`. -/
def optUn (m : Data) (k : Str) (p : Data → Bool) : Bool := match m.find k with
  | some v => p v
  | none => true

/-- `(s/map-of #{k} p :count 1)`. -/
def onlyEntry (m : Data) (k : Str) (p : Data → Bool) : Bool := match m with
  | .map [(k', v)] => k' == k && p v
  | _ => false

/-- `(s/coll-of p :kind set?)`. -/
def setOf (p : Data → Bool) : Data → Bool
  | .set l => l.all p
  | _ => false

/-- `(s/coll-of p :kind vector?)`. -/
def vectorOf (p : Data → Bool) : Data → Bool
  | .vec l => l.all p
  | _ => false

/-- The number of entries. -/
def countEntries : Data → Nat
  | .map l => l.length
  | _ => 0

/-- `::amount`: clj/src/limabean/spec.clj:15-16. -/
def isAmount (m : Data) : Bool := reqUn m (str% "units") isNumber && reqUn m (str% "cur") isStr && countEntries m == 2

/-- `nil?`. -/
def isNil : Data → Bool
  | .nil => true
  | _ => false

/-- `::metavalue`: clj/src/limabean/spec.clj:24-35. -/
def isMetavalue (m : Data) : Bool :=
  onlyEntry m (str% "acc") isStr || isAmount m || onlyEntry m (str% "bool") isBool || onlyEntry m (str% "cur") isStr ||
    onlyEntry m (str% "date") isDate || onlyEntry m (str% "link") isStr || isNil m || onlyEntry m (str% "number") isNumber ||
    onlyEntry m (str% "string") isStr || onlyEntry m (str% "tag") isStr || onlyEntry m (str% "units") isNumber

/-- `::metadata`: clj/src/limabean/spec.clj:36. -/
def isMetadata : Data → Bool
  | .map l => l.all fun p => isMetavalue p.2
  | _ => false

/-- The entries `:tags`, `:links` and `:metadata`: clj/src/limabean/spec.clj:21-22, 88, 94, 100. -/
def attachedOk (m : Data) : Bool :=
  optUn m (str% "tags") (setOf isStr) && optUn m (str% "links") (setOf isStr) && optUn m (str% "metadata") isMetadata

/-- `::booking`: clj/src/limabean/spec.clj:48. -/
def isBooking : Data → Bool
  | .kw s => [str% "strict", str% "strict-with-size", str% "none", str% "average", str% "fifo", str% "lifo", str% "hifo"].contains s
  | _ => false

/-- `::cost-spec`: clj/src/limabean/spec.clj:76-77. -/
def isCostSpec (m : Data) : Bool :=
  isMap m && optUn m (str% "per-unit") isNumber && optUn m (str% "total") isNumber && optUn m (str% "cur") isStr &&
    optUn m (str% "date") isDate && optUn m (str% "label") isStr && optUn m (str% "merge") isBool

/-- `::cost`: clj/src/limabean/spec.clj:78-79. -/
def isCost (m : Data) : Bool :=
  reqUn m (str% "per-unit") isNumber && reqUn m (str% "total") isNumber && reqUn m (str% "cur") isStr &&
    reqUn m (str% "date") isDate && optUn m (str% "label") isStr && optUn m (str% "merge") isBool

/-- `::price-spec`: clj/src/limabean/spec.clj:80. -/
def isPriceSpec (m : Data) : Bool :=
  isMap m && optUn m (str% "per-unit") isNumber && optUn m (str% "total") isNumber && optUn m (str% "cur") isStr

/-- `::price`: clj/src/limabean/spec.clj:81. -/
def isPrice (m : Data) : Bool :=
  reqUn m (str% "per-unit") isNumber && reqUn m (str% "cur") isStr && optUn m (str% "total") isNumber

/-- `:limabean.spec.raw/posting`: clj/src/limabean/spec.clj:86-88. -/
def isRawPosting (m : Data) : Bool :=
  isMap m && optUn m (str% "flag") isStr && optUn m (str% "acc") isStr && optUn m (str% "units") isNumber &&
    optUn m (str% "cur") isStr && optUn m (str% "cost-spec") isCostSpec && optUn m (str% "price-spec") isPriceSpec && attachedOk m

/-- `:limabean.spec.booked/posting`: clj/src/limabean/spec.clj:92-94. -/
def isBookedPosting (m : Data) : Bool :=
  reqUn m (str% "acc") isStr && reqUn m (str% "units") isNumber && reqUn m (str% "cur") isStr && optUn m (str% "flag") isStr &&
    optUn m (str% "cost") isCost && optUn m (str% "price") isPrice && attachedOk m

/-- `::raw-txn`, `::booked-txn`: clj/src/limabean/spec.clj:102-107. -/
def isTxn (raw : Bool) (m : Data) : Bool :=
  reqUn m (str% "flag") isStr && optUn m (str% "payee") isStr && optUn m (str% "narration") isStr &&
    optUn m (str% "postings") (vectorOf (if raw then isRawPosting else isBookedPosting))

/-- `::balance`: clj/src/limabean/spec.clj:44, 111. -/
def isBalance (m : Data) : Bool :=
  reqUn m (str% "acc") isStr && reqUn m (str% "units") isNumber && reqUn m (str% "cur") isStr && optUn m (str% "tolerance") isDecimal

/-- `::open`, with `forbid`: clj/src/limabean/spec.clj:5, 112-114. -/
def isOpen (m : Data) : Bool :=
  reqUn m (str% "acc") isStr && optUn m (str% "currencies") (setOf isStr) && optUn m (str% "booking") isBooking &&
    !([str% "cur", str% "curs", str% "currency"].any fun k => (m.get k).truthy)

/-- The part of a directive which depends on its kind: clj/src/limabean/spec.clj:110-137, 140-153. There is no method for other
values of `:dct`. -/
def kindOk (raw : Bool) (m : Data) : Bool := match m.get (str% "dct") with
  | .kw k =>
    if k = str% "txn" then isTxn raw m
    else if k = str% "price" then reqUn m (str% "cur") isStr && reqUn m (str% "price") isPrice
    else if k = str% "balance" then isBalance m
    else if k = str% "open" then isOpen m
    else if k = str% "close" then reqUn m (str% "acc") isStr
    else if k = str% "commodity" then reqUn m (str% "cur") isStr
    else if k = str% "pad" then reqUn m (str% "acc") isStr && reqUn m (str% "source") isStr
    else if k = str% "document" then reqUn m (str% "acc") isStr && reqUn m (str% "path") isStr
    else if k = str% "note" then reqUn m (str% "acc") isStr && reqUn m (str% "comment") isStr
    else if k = str% "event" then reqUn m (str% "type") isStr && reqUn m (str% "description") isStr
    else if k = str% "query" then reqUn m (str% "name") isStr && reqUn m (str% "content") isStr
    else if k = str% "custom" then reqUn m (str% "type") isStr && reqUn m (str% "values") (vectorOf isMetavalue)
    else false
  | .nil => m.has (str% "dct")
  | _ => false

/-- `::raw-dct`, `::booked-dct`: clj/src/limabean/spec.clj:100, 138, 154. -/
def validDct (raw : Bool) (m : Data) : Bool := reqUn m (str% "date") isDate && attachedOk m && kindOk raw m

end Clj
end Limabean
