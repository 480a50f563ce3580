/-
Which data a beanfile can contain: names (accounts, currencies, tags, links, metadata keys) have no character that JSON
escapes, and dates are calendar dates. Strings (payees, comments, labels, flags, …) are arbitrary.
-/
import Verif.Pod.Types

namespace Limabean
namespace Spec

/-- No quote, no backslash, no control character. -/
def PlainName (s : Str) : Prop := ∀ c ∈ s, c ≠ '"' ∧ c ≠ '\\' ∧ 32 ≤ c.toNat

/-- A date of the calendar, up to year 9999. -/
def CalendarDate (d : Date) : Prop :=
  d.y ≤ 9999 ∧ 1 ≤ d.m ∧ d.m ≤ 12 ∧ 1 ≤ d.d ∧
    d.d ≤ (match d.m with
      | 2 => if d.y % 4 = 0 ∧ (d.y % 100 ≠ 0 ∨ d.y % 400 = 0) then 29 else 28
      | 4 | 6 | 9 | 11 => 30
      | _ => 31)

/-- A metadata value that a beanfile can contain. -/
def MetaOk : MetaValue → Prop
  | .amount _ c => PlainName c
  | .currency c => PlainName c
  | .account a => PlainName a
  | .tag t => PlainName t
  | .link l => PlainName l
  | .date d => CalendarDate d
  | .string _ | .bool _ | .number _ | .null => True

/-- A set of names. -/
def NamesOk (l : List Str) : Prop := l.Nodup ∧ ∀ t ∈ l, PlainName t

/-- Metadata: each key is there once. -/
def EntriesOk (l : List (Str × MetaValue)) : Prop := (l.map Prod.fst).Nodup ∧ ∀ kv ∈ l, PlainName kv.1 ∧ MetaOk kv.2

/-- Tags, links and metadata that a beanfile can contain. -/
structure AttachedOk (tags links : Option (List Str)) (metadata : Option (List (Str × MetaValue))) : Prop where
  tags : ∀ l ∈ tags, NamesOk l
  links : ∀ l ∈ links, NamesOk l
  metadata : ∀ l ∈ metadata, EntriesOk l

/-- A posting that a beanfile can contain. -/
structure PostingOk (p : Raw.PostingSpec) : Prop where
  acc : PlainName p.acc
  cur : ∀ c ∈ p.cur, PlainName c
  cost : ∀ c ∈ p.costSpec, (∀ x ∈ c.cur, PlainName x) ∧ ∀ x ∈ c.date, CalendarDate x
  price : ∀ c ∈ p.priceSpec, ∀ x ∈ c.cur, PlainName x
  attached : AttachedOk p.tags p.links p.metadata

/-- A directive variant that a beanfile can contain. -/
def VariantOk : Raw.Variant → Prop
  | .transaction t => ∀ p ∈ t.postings, PostingOk p
  | .price p => PlainName p.cur ∧ PlainName p.price.cur
  | .balance b => PlainName b.acc ∧ PlainName b.cur
  | .opn o => PlainName o.acc ∧ ∀ l ∈ o.currencies, NamesOk l
  | .close c => PlainName c.acc
  | .commodity c => PlainName c.cur
  | .pad p => PlainName p.acc ∧ PlainName p.source
  | .document d => PlainName d.acc
  | .note n => PlainName n.acc
  | .event _ => True
  | .query _ => True
  | .custom c => ∀ v ∈ c.values, MetaOk v

/-- A directive that a beanfile can contain. -/
structure DirectiveOk (d : Raw.Directive) : Prop where
  date : CalendarDate d.date
  attached : AttachedOk d.tags d.links d.metadata
  variant : VariantOk d.variant

end Spec
end Limabean
