/-
What names look like in a beanfile, and when two directives are the same apart from their spans and the order within sets and maps.
-/
import Verif.Spec.Wire

namespace Limabean
namespace Spec

/-- A word: neither a blank nor a line end occurs. -/
def Word (s : Str) : Prop := ' ' ∉ s ∧ '\n' ∉ s

/-- The characters with which a number, a date, a string, a tag or punctuation begins. -/
def Special (c : Char) : Prop := c ∈ str% " \n0123456789-\"#^{}@~*,:"

instance (c : Char) : Decidable (Special c) := inferInstanceAs (Decidable (c ∈ _))

/-- The lower case letters, with one of which metadata keys begin. -/
def Lower (c : Char) : Prop := 'a' ≤ c ∧ c ≤ 'z'

instance (c : Char) : Decidable (Lower c) := inferInstanceAs (Decidable (_ ∧ _))

/-- The name of an account: a word with a colon in it, not beginning with a lower case letter. -/
def AccountName (a : Str) : Prop := Word a ∧ ':' ∈ a ∧ ∃ c s, a = c :: s ∧ ¬ Special c ∧ ¬ Lower c

/-- The name of a currency. -/
def CurrencyName (s : Str) : Prop :=
  Word s ∧ ':' ∉ s ∧ ',' ∉ s ∧ '}' ∉ s ∧ (∃ c r, s = c :: r ∧ ¬ Special c) ∧ s ≠ str% "TRUE" ∧ s ≠ str% "FALSE"

/-- A tag or a link, without its mark. -/
def TagName (s : Str) : Prop := Word s ∧ s ≠ []

/-- A metadata key. -/
def KeyName (s : Str) : Prop := Word s ∧ ':' ∉ s ∧ ∃ c r, s = c :: r ∧ Lower c

/-- A flag. -/
def FlagName (s : Str) : Prop := Word s ∧ ':' ∉ s ∧ ∃ c r, s = c :: r ∧ ¬ Lower c ∧ c ≠ '^' ∧ (c = '#' → r = [])

/-- A text without double quotes. -/
def NoQuotes (s : Str) : Prop := '"' ∉ s

/-- A metadata value made of such names, whose text has no double quotes. -/
def WritableValue : MetaValue → Prop
  | .amount _ c => CurrencyName c
  | .string s => NoQuotes s
  | .currency c => CurrencyName c
  | .account a => AccountName a
  | .tag t => TagName t
  | .link l => TagName l
  | .date d => CalendarDate d
  | .bool _ => True
  | .number _ => True
  | .null => True

/-- Such tags or links. -/
def WritableTags (o : Option (List Str)) : Prop := ∀ l ∈ o, ∀ t ∈ l, TagName t

/-- Such metadata, with each key once. -/
def WritableMeta (o : Option (List (Str × MetaValue))) : Prop :=
  ∀ l ∈ o, (l.map Prod.fst).Nodup ∧ ∀ kv ∈ l, KeyName kv.1 ∧ WritableValue kv.2

/-- Such a cost specification, without both a unit cost and a total cost. -/
def WritableCost (c : Raw.CostSpec) : Prop :=
  (c.perUnit = none ∨ c.total = none) ∧ (∀ x ∈ c.cur, CurrencyName x) ∧ (∀ x ∈ c.date, CalendarDate x) ∧ ∀ x ∈ c.label, NoQuotes x

/-- Such a price specification, without both a unit price and a total price. -/
def WritablePrice (p : Raw.PriceSpec) : Prop := (p.perUnit = none ∨ p.total = none) ∧ ∀ x ∈ p.cur, CurrencyName x

/-- Such a posting. -/
def WritablePosting (p : Raw.PostingSpec) : Prop :=
  (∀ x ∈ p.flag, FlagName x) ∧ AccountName p.acc ∧ (∀ x ∈ p.cur, CurrencyName x) ∧ (∀ x ∈ p.costSpec, WritableCost x) ∧
    (∀ x ∈ p.priceSpec, WritablePrice x) ∧ WritableTags p.tags ∧ WritableTags p.links ∧ WritableMeta p.metadata

/-- Such directives, except custom ones. A transaction with a payee has a narration; a price is per unit. -/
def WritableVariant : Raw.Variant → Prop
  | .transaction t => FlagName t.flag ∧ (∀ x ∈ t.payee, NoQuotes x) ∧ (∀ x ∈ t.narration, NoQuotes x) ∧
      (t.narration = none → t.payee = none) ∧ ∀ p ∈ t.postings, WritablePosting p
  | .price p => CurrencyName p.cur ∧ CurrencyName p.price.cur ∧ p.price.total = none
  | .balance b => AccountName b.acc ∧ CurrencyName b.cur
  | .opn o => AccountName o.acc ∧ (∀ l ∈ o.currencies, l ≠ [] ∧ l.Nodup ∧ ∀ c ∈ l, CurrencyName c)
  | .close c => AccountName c.acc
  | .commodity c => CurrencyName c.cur
  | .pad p => AccountName p.acc ∧ AccountName p.source
  | .document d => AccountName d.acc ∧ NoQuotes d.path
  | .note n => AccountName n.acc ∧ NoQuotes n.comment
  | .event e => NoQuotes e.type_ ∧ NoQuotes e.description
  | .query q => NoQuotes q.name ∧ NoQuotes q.content
  | .custom _ => False

/-- Such a directive. -/
def Writable (d : Raw.Directive) : Prop :=
  CalendarDate d.date ∧ WritableTags d.tags ∧ WritableTags d.links ∧ WritableMeta d.metadata ∧ WritableVariant d.variant

/-- The same elements; no set counts as the empty one. -/
def SameElements {α : Type} (a b : Option (List α)) : Prop := ∀ x, x ∈ a.getD [] ↔ x ∈ b.getD []

/-- The same posting, apart from the span and the order within sets and maps. -/
def SamePosting (p q : Raw.PostingSpec) : Prop :=
  p.flag = q.flag ∧ p.acc = q.acc ∧ p.units = q.units ∧ p.cur = q.cur ∧ p.costSpec = q.costSpec ∧ p.priceSpec = q.priceSpec ∧
    SameElements p.tags q.tags ∧ SameElements p.links q.links ∧ SameElements p.metadata q.metadata

/-- The same fields of one kind. -/
def SameVariant : Raw.Variant → Raw.Variant → Prop
  | .transaction t, .transaction t' => t.flag = t'.flag ∧ t.payee = t'.payee ∧ t.narration = t'.narration ∧
      List.Forall₂ SamePosting t.postings t'.postings
  | .opn o, .opn o' => o.acc = o'.acc ∧ SameElements o.currencies o'.currencies ∧ o.booking = o'.booking
  | v, v' => v = v'

/-- The same directive, apart from spans and the order within sets and maps. -/
def SameDirective (d d' : Raw.Directive) : Prop :=
  d.date = d'.date ∧ SameElements d.tags d'.tags ∧ SameElements d.links d'.links ∧ SameElements d.metadata d'.metadata ∧
    SameVariant d.variant d'.variant

end Spec
end Limabean
