/-
What a directive says which the front end holds as Clojure data, whoever made it, in terms of the server's directives; and which of them
can be sent to the server.
-/
import Verif.Spec.ClientData

namespace Limabean
namespace Spec

open Clj

/-- Data as there are in Clojure: a map has each key once. Dates are dates of the calendar; later years than 9999 are left out. -/
inductive RealData : Data → Prop
  | nil : RealData .nil
  | bool (b : Bool) : RealData (.bool b)
  | num (d : Dec) : RealData (.num d)
  | str (s : Str) : RealData (.str s)
  | kw (s : Str) : RealData (.kw s)
  | date {d : Date} : CalendarDate d → RealData (.date d)
  | map {l : List (Str × Data)} : (l.map Prod.fst).Nodup → (∀ p ∈ l, RealData p.2) → RealData (.map l)
  | vec {l : List Data} : (∀ x ∈ l, RealData x) → RealData (.vec l)
  | set {l : List Data} : (∀ x ∈ l, RealData x) → RealData (.set l)

/-- A value which may be missing, or `nil`. -/
def Maybe {α : Type} (P : Data → α → Prop) (x : Data) : Option α → Prop
  | none => x = .nil
  | some a => P x a

def StrIs (x : Data) (s : Str) : Prop := x = .str s
def NumIs (x : Data) (n : Dec) : Prop := x = .num n
def DateIs (x : Data) (d : Date) : Prop := x = .date d
def SpanIs (x : Data) (s : Span) : Prop := x = ofSpan s
def BookingIs (x : Data) (b : Booking) : Prop := x = .kw (bookingName b)

/-- A set of strings. -/
def SetIs (x : Data) (l : List Str) : Prop := ∃ xs, x = .set xs ∧ l.Nodup ∧ ∀ t, t ∈ l ↔ .str t ∈ xs

/-- A vector. -/
def VecIs {α : Type} (P : Data → α → Prop) (x : Data) (l : List α) : Prop := ∃ xs, x = .vec xs ∧ List.Forall₂ P xs l

/-- A metadata value. -/
def MetaIs (x : Data) : MetaValue → Prop
  | .amount u c => NumIs (x.get (str% "units")) u ∧ StrIs (x.get (str% "cur")) c
  | m => x = ofMeta m

/-- Metadata. -/
def MetadataIs (x : Data) (l : List (Str × MetaValue)) : Prop :=
  ∃ xs, x = .map xs ∧ (l.map Prod.fst).Nodup ∧ (∀ k, k ∈ l.map Prod.fst ↔ k ∈ xs.map Prod.fst) ∧
    ∀ k v m, (k, v) ∈ xs → (k, m) ∈ l → MetaIs v m

/-- A cost specification. -/
structure CostSpecIs (x : Data) (c : Raw.CostSpec) : Prop where
  given : x ≠ .nil
  perUnit : Maybe NumIs (x.get (str% "per-unit")) c.perUnit
  total : Maybe NumIs (x.get (str% "total")) c.total
  cur : Maybe StrIs (x.get (str% "cur")) c.cur
  date : Maybe DateIs (x.get (str% "date")) c.date
  label : Maybe StrIs (x.get (str% "label")) c.label
  merge : c.merge = true ↔ x.get (str% "merge") = .bool true

/-- A price specification. -/
structure PriceSpecIs (x : Data) (c : Raw.PriceSpec) : Prop where
  given : x ≠ .nil
  perUnit : Maybe NumIs (x.get (str% "per-unit")) c.perUnit
  total : Maybe NumIs (x.get (str% "total")) c.total
  cur : Maybe StrIs (x.get (str% "cur")) c.cur

/-- A price. -/
structure PriceIs (x : Data) (c : Raw.Price) : Prop where
  perUnit : NumIs (x.get (str% "per-unit")) c.perUnit
  total : Maybe NumIs (x.get (str% "total")) c.total
  cur : StrIs (x.get (str% "cur")) c.cur

/-- Tags, links and metadata. -/
structure AttachedIs (x : Data) (tags links : Option (List Str)) (metadata : Option (List (Str × MetaValue))) : Prop where
  tags : Maybe SetIs (x.get (str% "tags")) tags
  links : Maybe SetIs (x.get (str% "links")) links
  metadata : Maybe MetadataIs (x.get (str% "metadata")) metadata

/-- A posting. -/
structure PostingIs (x : Data) (p : Raw.PostingSpec) : Prop where
  span : Maybe SpanIs (x.get (str% "span")) p.span
  flag : Maybe StrIs (x.get (str% "flag")) p.flag
  acc : StrIs (x.get (str% "acc")) p.acc
  units : Maybe NumIs (x.get (str% "units")) p.units
  cur : Maybe StrIs (x.get (str% "cur")) p.cur
  costSpec : Maybe CostSpecIs (x.get (str% "cost-spec")) p.costSpec
  priceSpec : Maybe PriceSpecIs (x.get (str% "price-spec")) p.priceSpec
  attached : AttachedIs x p.tags p.links p.metadata

/-- The part of a directive which depends on its kind. -/
def VariantIs (x : Data) : Raw.Variant → Prop
  | .transaction t => x.get (str% "dct") = .kw (str% "txn") ∧ StrIs (x.get (str% "flag")) t.flag ∧
      Maybe StrIs (x.get (str% "payee")) t.payee ∧ Maybe StrIs (x.get (str% "narration")) t.narration ∧
      VecIs PostingIs (x.get (str% "postings")) t.postings
  | .price p => x.get (str% "dct") = .kw (str% "price") ∧ StrIs (x.get (str% "cur")) p.cur ∧ PriceIs (x.get (str% "price")) p.price
  | .balance b => x.get (str% "dct") = .kw (str% "balance") ∧ StrIs (x.get (str% "acc")) b.acc ∧
      NumIs (x.get (str% "units")) b.units ∧ StrIs (x.get (str% "cur")) b.cur ∧ Maybe NumIs (x.get (str% "tolerance")) b.tolerance
  | .opn o => x.get (str% "dct") = .kw (str% "open") ∧ StrIs (x.get (str% "acc")) o.acc ∧
      Maybe SetIs (x.get (str% "currencies")) o.currencies ∧ Maybe BookingIs (x.get (str% "booking")) o.booking
  | .close c => x.get (str% "dct") = .kw (str% "close") ∧ StrIs (x.get (str% "acc")) c.acc
  | .commodity c => x.get (str% "dct") = .kw (str% "commodity") ∧ StrIs (x.get (str% "cur")) c.cur
  | .pad p => x.get (str% "dct") = .kw (str% "pad") ∧ StrIs (x.get (str% "acc")) p.acc ∧ StrIs (x.get (str% "source")) p.source
  | .document d => x.get (str% "dct") = .kw (str% "document") ∧ StrIs (x.get (str% "acc")) d.acc ∧ StrIs (x.get (str% "path")) d.path
  | .note n => x.get (str% "dct") = .kw (str% "note") ∧ StrIs (x.get (str% "acc")) n.acc ∧ StrIs (x.get (str% "comment")) n.comment
  | .event e => x.get (str% "dct") = .kw (str% "event") ∧ StrIs (x.get (str% "type")) e.type_ ∧
      StrIs (x.get (str% "description")) e.description
  | .query q => x.get (str% "dct") = .kw (str% "query") ∧ StrIs (x.get (str% "name")) q.name ∧ StrIs (x.get (str% "content")) q.content
  | .custom c => x.get (str% "dct") = .kw (str% "custom") ∧ StrIs (x.get (str% "type")) c.type_ ∧
      VecIs MetaIs (x.get (str% "values")) c.values

/-- The data say what the directive says. -/
structure DirectiveIs (x : Data) (d : Raw.Directive) : Prop where
  span : Maybe SpanIs (x.get (str% "span")) d.span
  date : DateIs (x.get (str% "date")) d.date
  attached : AttachedIs x d.tags d.links d.metadata
  variant : VariantIs x d.variant

/-! ### What can be sent -/

/-- A string is a plain name. -/
def SendName (x : Data) : Prop := ∀ s, x = .str s → PlainName s

/-- The strings in a set are plain names. -/
def SendNames (x : Data) : Prop := ∀ y ∈ x.elems, SendName y

/-- A metadata value which can be sent: strings are plain, unless under `:string`; there is nothing with `:units` alone. -/
def SendMeta (x : Data) : Prop :=
  (∀ k, k ≠ str% "string" → SendName (x.get k)) ∧ ∀ n, x ≠ .map [(str% "units", n)]

/-- Metadata which can be sent. -/
def SendMetadata (x : Data) : Prop := ∀ l, x = .map l → ∀ p ∈ l, PlainName p.1 ∧ SendMeta p.2

/-- A cost or price which can be sent. -/
def SendCost (x : Data) : Prop := SendName (x.get (str% "cur"))

/-- Tags, links and metadata which can be sent. -/
def SendAttached (x : Data) : Prop :=
  SendNames (x.get (str% "tags")) ∧ SendNames (x.get (str% "links")) ∧ SendMetadata (x.get (str% "metadata"))

/-- A posting which can be sent: in particular it has an account. -/
def SendPosting (x : Data) : Prop :=
  x.get (str% "acc") ≠ .nil ∧ SendName (x.get (str% "acc")) ∧ SendName (x.get (str% "cur")) ∧ SendCost (x.get (str% "cost-spec")) ∧
    SendCost (x.get (str% "price-spec")) ∧ SendAttached x

/-- The entries of a directive of this kind which are names. -/
def namesOfKind (kind : Str) : List Str :=
  if kind = str% "price" ∨ kind = str% "commodity" then [str% "cur"]
  else if kind = str% "balance" then [str% "acc", str% "cur"]
  else if kind = str% "pad" then [str% "acc", str% "source"]
  else if kind = str% "open" ∨ kind = str% "close" ∨ kind = str% "document" ∨ kind = str% "note" then [str% "acc"]
  else []

/-- The part of a directive which depends on its kind can be sent: in particular a transaction has postings. -/
structure SendKind (kind : Str) (x : Data) : Prop where
  names : ∀ k ∈ namesOfKind kind, SendName (x.get k)
  txn : kind = str% "txn" → x.get (str% "postings") ≠ .nil ∧ ∀ p ∈ (x.get (str% "postings")).elems, SendPosting p
  price : kind = str% "price" → SendCost (x.get (str% "price"))
  opn : kind = str% "open" → SendNames (x.get (str% "currencies"))
  custom : kind = str% "custom" → ∀ v ∈ (x.get (str% "values")).elems, SendMeta v

/-- A directive which can be sent: in particular it has a kind. -/
structure SendDirective (x : Data) : Prop where
  attached : SendAttached x
  kind : ∃ kind, x.get (str% "dct") = .kw kind ∧ SendKind kind x

/-- The entry `:span`, if there is one, is a span: the check does not look at it. -/
def SpanKept (x : Data) : Prop := x.get (str% "span") = .nil ∨ ∃ s, x.get (str% "span") = ofSpan s

/-- Spans of a directive and its postings. -/
def SpansKept (x : Data) : Prop := SpanKept x ∧ ∀ p ∈ (x.get (str% "postings")).elems, SpanKept p

end Spec
end Limabean
