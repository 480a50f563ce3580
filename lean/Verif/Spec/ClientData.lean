/-
The Clojure data which stand for the server's directives, as a user of the front end knows them. `ord` is the iteration order of
sets.
-/
import Verif.Clj.Data
import Verif.Spec.Wire

namespace Limabean
namespace Spec

open Clj

/-- An entry which is left out if there is no value. -/
def optEntry {α : Type} (k : Str) (x : Option α) (f : α → Data) : List (Str × Data) :=
  match x with
  | some a => [(k, f a)]
  | none => []

/-- A metadata value. -/
def ofMeta : MetaValue → Data
  | .null => .nil
  | .amount u c => .map [(str% "units", .num u), (str% "cur", .str c)]
  | .string s => .map [(str% "string", .str s)]
  | .currency c => .map [(str% "cur", .str c)]
  | .account a => .map [(str% "acc", .str a)]
  | .tag t => .map [(str% "tag", .str t)]
  | .link l => .map [(str% "link", .str l)]
  | .date d => .map [(str% "date", .date d)]
  | .bool b => .map [(str% "bool", .bool b)]
  | .number n => .map [(str% "number", .num n)]

/-- A natural number. -/
def ofNat (n : Nat) : Data := .num ⟨n, 0⟩

/-- A span. -/
def ofSpan (s : Span) : Data := .vec [ofNat s.source, ofNat s.start, ofNat s.stop]

/-- A set of strings. -/
def ofSet (ord : List Data → List Data) (l : List Str) : Data := .set (ord (l.map .str))

/-- Metadata. -/
def ofMetadata (l : List (Str × MetaValue)) : Data := .map (l.map fun p => (p.1, ofMeta p.2))

/-- The name of a booking method. -/
def bookingName : Booking → Str
  | .strict => str% "strict"
  | .strictWithSize => str% "strict-with-size"
  | .none => str% "none"
  | .average => str% "average"
  | .fifo => str% "fifo"
  | .lifo => str% "lifo"
  | .hifo => str% "hifo"

/-- A cost specification. -/
def ofCostSpec (c : Raw.CostSpec) : Data :=
  .map (optEntry (str% "per-unit") c.perUnit .num ++ optEntry (str% "total") c.total .num ++ optEntry (str% "cur") c.cur .str ++
    optEntry (str% "date") c.date .date ++ optEntry (str% "label") c.label .str ++
    optEntry (str% "merge") (if c.merge then some () else none) (fun _ => .bool true))

/-- A price specification. -/
def ofPriceSpec (p : Raw.PriceSpec) : Data :=
  .map (optEntry (str% "per-unit") p.perUnit .num ++ optEntry (str% "total") p.total .num ++ optEntry (str% "cur") p.cur .str)

/-- The price of a price directive. -/
def ofPrice (p : Raw.Price) : Data :=
  .map ([(str% "per-unit", .num p.perUnit)] ++ optEntry (str% "total") p.total .num ++ [(str% "cur", .str p.cur)])

/-- A posting as parsed. -/
def ofPosting (ord : List Data → List Data) (p : Raw.PostingSpec) : Data :=
  .map (optEntry (str% "span") p.span ofSpan ++ optEntry (str% "flag") p.flag .str ++ [(str% "acc", .str p.acc)] ++
    optEntry (str% "units") p.units .num ++ optEntry (str% "cur") p.cur .str ++
    optEntry (str% "cost-spec") p.costSpec ofCostSpec ++ optEntry (str% "price-spec") p.priceSpec ofPriceSpec ++
    optEntry (str% "tags") p.tags (ofSet ord) ++ optEntry (str% "links") p.links (ofSet ord) ++
    optEntry (str% "metadata") p.metadata ofMetadata)

/-- The fields of a directive which depend on its kind. -/
def ofVariant (ord : List Data → List Data) : Raw.Variant → List (Str × Data)
  | .transaction t => [(str% "dct", .kw (str% "txn")), (str% "flag", .str t.flag)] ++
      optEntry (str% "payee") t.payee .str ++ optEntry (str% "narration") t.narration .str ++
      [(str% "postings", .vec (t.postings.map (ofPosting ord)))]
  | .price p => [(str% "dct", .kw (str% "price")), (str% "cur", .str p.cur), (str% "price", ofPrice p.price)]
  | .balance b => [(str% "dct", .kw (str% "balance")), (str% "acc", .str b.acc), (str% "units", .num b.units),
      (str% "cur", .str b.cur)] ++ optEntry (str% "tolerance") b.tolerance .num
  | .opn o => [(str% "dct", .kw (str% "open")), (str% "acc", .str o.acc)] ++
      optEntry (str% "currencies") o.currencies (ofSet ord) ++
      optEntry (str% "booking") o.booking (fun b => .kw (bookingName b))
  | .close c => [(str% "dct", .kw (str% "close")), (str% "acc", .str c.acc)]
  | .commodity c => [(str% "dct", .kw (str% "commodity")), (str% "cur", .str c.cur)]
  | .pad p => [(str% "dct", .kw (str% "pad")), (str% "acc", .str p.acc), (str% "source", .str p.source)]
  | .document d => [(str% "dct", .kw (str% "document")), (str% "acc", .str d.acc), (str% "path", .str d.path)]
  | .note n => [(str% "dct", .kw (str% "note")), (str% "acc", .str n.acc), (str% "comment", .str n.comment)]
  | .event e => [(str% "dct", .kw (str% "event")), (str% "type", .str e.type_), (str% "description", .str e.description)]
  | .query q => [(str% "dct", .kw (str% "query")), (str% "name", .str q.name), (str% "content", .str q.content)]
  | .custom c => [(str% "dct", .kw (str% "custom")), (str% "type", .str c.type_),
      (str% "values", .vec (c.values.map ofMeta))]

/-- A directive as parsed. -/
def ofDirective (ord : List Data → List Data) (d : Raw.Directive) : Data :=
  .map (optEntry (str% "span") d.span ofSpan ++ [(str% "date", .date d.date)] ++
    optEntry (str% "tags") d.tags (ofSet ord) ++ optEntry (str% "links") d.links (ofSet ord) ++
    optEntry (str% "metadata") d.metadata ofMetadata ++ ofVariant ord d.variant)

/-- The cost of a booked posting. -/
def ofCost (c : Booked.Cost) : Data :=
  .map ([(str% "date", .date c.date), (str% "per-unit", .num c.perUnit), (str% "total", .num c.total),
      (str% "cur", .str c.cur)] ++ optEntry (str% "label") c.label .str ++
    optEntry (str% "merge") (if c.merge then some () else none) (fun _ => .bool true))

/-- The price of a booked posting. -/
def ofBookedPrice (p : Booked.Price) : Data :=
  .map ([(str% "per-unit", .num p.perUnit)] ++ optEntry (str% "total") p.total .num ++ [(str% "cur", .str p.cur)])

/-- A booked posting. -/
def ofBookedPosting (ord : List Data → List Data) (p : Booked.Posting) : Data :=
  .map (optEntry (str% "idx") p.idx ofNat ++ optEntry (str% "flag") p.flag .str ++
    [(str% "acc", .str p.acc), (str% "units", .num p.units), (str% "cur", .str p.cur)] ++
    optEntry (str% "cost") p.cost ofCost ++ optEntry (str% "price") p.price ofBookedPrice ++
    optEntry (str% "tags") p.tags (ofSet ord) ++ optEntry (str% "links") p.links (ofSet ord) ++
    optEntry (str% "metadata") p.metadata ofMetadata)

/-- The fields of a booked directive which depend on its kind. -/
def ofBookedVariant (ord : List Data → List Data) : Booked.Variant → List (Str × Data)
  | .transaction t => [(str% "dct", .kw (str% "txn")), (str% "flag", .str t.flag)] ++
      optEntry (str% "payee") t.payee .str ++ optEntry (str% "narration") t.narration .str ++
      [(str% "postings", .vec (t.postings.map (ofBookedPosting ord)))]
  | .price p => ofVariant ord (.price p)
  | .balance b => ofVariant ord (.balance b.raw)
  | .opn o => ofVariant ord (.opn o)
  | .close c => ofVariant ord (.close c)
  | .commodity c => ofVariant ord (.commodity c)
  | .pad p => ofVariant ord (.pad p)
  | .document d => ofVariant ord (.document d)
  | .note n => ofVariant ord (.note n)
  | .event e => ofVariant ord (.event e)
  | .query q => ofVariant ord (.query q)
  | .custom c => ofVariant ord (.custom c)

/-- A booked directive. -/
def ofBooked (ord : List Data → List Data) (d : Booked.Directive) : Data :=
  .map ([(str% "idx", ofNat d.idx), (str% "date", .date d.date)] ++
    optEntry (str% "tags") d.tags (ofSet ord) ++ optEntry (str% "links") d.links (ofSet ord) ++
    optEntry (str% "metadata") d.metadata ofMetadata ++ ofBookedVariant ord d.variant)

/-- Metadata have each key once and dates which exist. -/
def MetadataOk (m : Option (List (Str × MetaValue))) : Prop :=
  ∀ l ∈ m, (l.map Prod.fst).Nodup ∧ ∀ kv ∈ l, ∀ d, kv.2 = .date d → CalendarDate d

/-- The dates of a directive exist, and metadata have each key once. -/
def DatesOk (d : Raw.Directive) : Prop :=
  CalendarDate d.date ∧ MetadataOk d.metadata ∧ match d.variant with
    | .transaction t => ∀ p ∈ t.postings, MetadataOk p.metadata ∧ ∀ c ∈ p.costSpec, ∀ x ∈ c.date, CalendarDate x
    | .custom c => ∀ v ∈ c.values, ∀ x, v = .date x → CalendarDate x
    | _ => True

/-- The same for a booked directive. -/
def BookedDatesOk (d : Booked.Directive) : Prop :=
  CalendarDate d.date ∧ MetadataOk d.metadata ∧ match d.variant with
    | .transaction t => ∀ p ∈ t.postings, MetadataOk p.metadata ∧ ∀ c ∈ p.cost, CalendarDate c.date
    | .custom c => ∀ v ∈ c.values, ∀ x, v = .date x → CalendarDate x
    | _ => True

/-- Metadata without the values of the keys `dct` and `booking`. -/
def withoutLost (m : Option (List (Str × MetaValue))) : Option (List (Str × MetaValue)) :=
  m.map fun l => l.map fun p => if p.1 = str% "dct" ∨ p.1 = str% "booking" then (p.1, .null) else p

/-- A directive whose metadata and whose postings' metadata lack the values of the keys `dct` and `booking`. -/
def withoutLostMeta (d : Raw.Directive) : Raw.Directive :=
  { d with
    metadata := withoutLost d.metadata
    variant := match d.variant with
      | .transaction t => .transaction { t with postings := t.postings.map fun p => { p with metadata := withoutLost p.metadata } }
      | v => v }

/-- The same for a booked directive. -/
def withoutLostBooked (d : Booked.Directive) : Booked.Directive :=
  { d with
    metadata := withoutLost d.metadata
    variant := match d.variant with
      | .transaction t => .transaction { t with postings := t.postings.map fun p => { p with metadata := withoutLost p.metadata } }
      | v => v }

end Spec
end Limabean
