/-
When two directives which the parser has read say the same: the same place, date and content; numbers count by their value, tags,
links and currencies as sets, metadata by the value of each key.
-/
import Verif.Server.Convert
import Verif.Spec.Wire

namespace Limabean
namespace Spec

open Lima (Spanned)

/-- Both absent, or the same item. -/
def SameItem {α : Type} (x y : Option (Spanned α)) : Prop := x.map (fun z => z.item) = y.map fun z => z.item

/-- Both absent, or expressions of the same value. -/
def SameNumber (x y : Option (Spanned Lima.Expr)) : Prop := x.map (fun z => z.item.value) = y.map fun z => z.item.value

/-- The same texts, as sets. -/
def SameTexts (l l' : List (Spanned Str)) : Prop := ∀ t, (∃ x ∈ l, x.item = t) ↔ ∃ x ∈ l', x.item = t

/-- The same amount. -/
def SameAmount (a a' : Lima.Amount) : Prop :=
  a.number.item.value = a'.number.item.value ∧ a.currency.item = a'.currency.item

/-- The same value of metadata: of the same kind. -/
def SameValue : Lima.MetaValue → Lima.MetaValue → Prop
  | .amount a, .amount a' => SameAmount a a'
  | .simple (.expr e), .simple (.expr e') => e.value = e'.value
  | v, v' => v = v'

/-- The value which metadata give to a key. -/
def valueOf (l : List (Spanned Str × Spanned Lima.MetaValue)) (k : Str) : Option Lima.MetaValue :=
  ((l.filter fun kv => kv.1.item = k).getLast?).map fun kv => kv.2.item

/-- The same tags, links and metadata. -/
structure SameMetadata (m m' : Lima.Metadata) : Prop where
  tags : SameTexts m.tags m'.tags
  links : SameTexts m.links m'.links
  keyValues : ∀ k, Option.Rel SameValue (valueOf m.keyValues k) (valueOf m'.keyValues k)

/-- The same scope and value. -/
def SameScoped : Lima.Scoped → Lima.Scoped → Prop
  | .perUnit e, .perUnit e' => e.value = e'.value
  | .total e, .total e' => e.value = e'.value
  | _, _ => False

/-- The same annotation of a price. -/
def SamePriceSpec : Lima.PriceSpec → Lima.PriceSpec → Prop
  | .unspecified, .unspecified => True
  | .bareCurrency c, .bareCurrency c' => c = c'
  | .bareAmount a, .bareAmount a' => SameScoped a a'
  | .currencyAmount a c, .currencyAmount a' c' => SameScoped a a' ∧ c = c'
  | _, _ => False

/-- The same specification of a cost. -/
structure SameCostSpec (c c' : Lima.CostSpec) : Prop where
  perUnit : SameNumber c.perUnit c'.perUnit
  total : SameNumber c.total c'.total
  currency : SameItem c.currency c'.currency
  date : SameItem c.date c'.date
  label : SameItem c.label c'.label
  merge : c.merge = c'.merge

/-- The same posting. -/
structure SameSourcePosting (p p' : Spanned Lima.Posting) : Prop where
  span : p.span = p'.span
  flag : SameItem p.item.flag p'.item.flag
  account : p.item.account.item = p'.item.account.item
  amount : SameNumber p.item.amount p'.item.amount
  currency : SameItem p.item.currency p'.item.currency
  costSpec : Option.Rel (fun c c' => SameCostSpec c.item c'.item) p.item.costSpec p'.item.costSpec
  price : Option.Rel (fun c c' => SamePriceSpec c.item c'.item) p.item.priceAnnotation p'.item.priceAnnotation
  metadata : SameMetadata p.item.metadata p'.item.metadata

/-- The same kind and content of directives. -/
def SameSourceVariant : Lima.Variant → Lima.Variant → Prop
  | .transaction f py na ps, .transaction f' py' na' ps' =>
    f.item = f'.item ∧ SameItem py py' ∧ SameItem na na' ∧ List.Forall₂ SameSourcePosting ps ps'
  | .price c a, .price c' a' => c.item = c'.item ∧ SameAmount a a'
  | .balance acc a t, .balance acc' a' t' => acc.item = acc'.item ∧ SameAmount a a' ∧ SameItem t t'
  | .opn acc cs b, .opn acc' cs' b' => acc.item = acc'.item ∧ SameTexts cs cs' ∧ SameItem b b'
  | .close acc, .close acc' => acc.item = acc'.item
  | .commodity c, .commodity c' => c.item = c'.item
  | .pad acc s, .pad acc' s' => acc.item = acc'.item ∧ s.item = s'.item
  | .document acc x, .document acc' x' => acc.item = acc'.item ∧ x.item = x'.item
  | .note acc x, .note acc' x' => acc.item = acc'.item ∧ x.item = x'.item
  | .event t x, .event t' x' => t.item = t'.item ∧ x.item = x'.item
  | .query t x, .query t' x' => t.item = t'.item ∧ x.item = x'.item
  | .custom t vs, .custom t' vs' => t.item = t'.item ∧ List.Forall₂ (fun v v' => SameValue v.item v'.item) vs vs'
  | _, _ => False

/-- The same directive. -/
structure SameSource (d d' : Spanned Lima.Directive) : Prop where
  span : d.span = d'.span
  date : d.item.date.item = d'.item.date.item
  metadata : SameMetadata d.item.metadata d'.item.metadata
  variant : SameSourceVariant d.item.variant d'.item.variant

/-- What Rust guarantees of the iteration order of sets and maps, and the parser of the text of flags. -/
structure FairHashes (H : Convert.Hashes) : Prop where
  set : ∀ l, (H.set l).Perm l
  map : ∀ l, (H.map l).Perm l
  letter : ∀ c c', H.letter c = H.letter c' → c = c'
  symbol : ∀ c, H.letter c ∉ [str% "*", str% "!", str% "&", str% "#", str% "?", str% "%"]

/-! ### What a directive says, and what the parser guarantees of it -/

/-- The set holds the texts, each once; an empty set is left out. -/
structure TextsRead (l : List (Spanned Str)) (o : Option (List Str)) : Prop where
  texts : ∀ t, (∃ s ∈ o, t ∈ s) ↔ ∃ x ∈ l, x.item = t
  once : ∀ s ∈ o, s.Nodup
  some : ∀ s ∈ o, s ≠ []

/-- The same value of metadata. -/
inductive ValueRead : Lima.MetaValue → MetaValue → Prop
  | string (x) : ValueRead (.simple (.string x)) (.string x)
  | currency (x) : ValueRead (.simple (.currency x)) (.currency x)
  | account (x) : ValueRead (.simple (.account x)) (.account x)
  | tag (x) : ValueRead (.simple (.tag x)) (.tag x)
  | link (x) : ValueRead (.simple (.link x)) (.link x)
  | date (x) : ValueRead (.simple (.date x)) (.date x)
  | bool (x) : ValueRead (.simple (.bool x)) (.bool x)
  | number (e) : ValueRead (.simple (.expr e)) (.number e.value)
  | null : ValueRead (.simple .null) .null
  | amount (a) : ValueRead (.amount a) (.amount a.number.item.value a.currency.item)

/-- The map gives each key its last value; an empty map is left out. -/
structure PairsRead (l : List (Spanned Str × Spanned Lima.MetaValue)) (o : Option (List (Str × MetaValue))) : Prop where
  values : ∀ k v, (∃ s ∈ o, (k, v) ∈ s) ↔ ∃ w ∈ valueOf l k, ValueRead w v
  once : ∀ s ∈ o, (s.map Prod.fst).Nodup
  some : ∀ s ∈ o, s ≠ []

/-- Tags, links and metadata as read. -/
structure AttachedRead (m : Lima.Metadata) (tags links : Option (List Str)) (metadata : Option (List (Str × MetaValue))) : Prop where
  tags : TextsRead m.tags tags
  links : TextsRead m.links links
  metadata : PairsRead m.keyValues metadata

/-- The text of a flag; that of a letter is the parser's. -/
inductive FlagRead (letter : Char → Str) : Lima.Flag → Str → Prop
  | asterisk : FlagRead letter .asterisk (str% "*")
  | exclamation : FlagRead letter .exclamation (str% "!")
  | ampersand : FlagRead letter .ampersand (str% "&")
  | hash : FlagRead letter .hash (str% "#")
  | question : FlagRead letter .question (str% "?")
  | percent : FlagRead letter .percent (str% "%")
  | letter (c) : FlagRead letter (.letter c) (letter c)

/-- The value of a number, if there is one. -/
def NumberRead (x : Option (Spanned Lima.Expr)) (y : Option Dec) : Prop := Option.Rel (fun a b => a.item.value = b) x y

/-- The item, if there is one. -/
def ItemRead {α : Type} (x : Option (Spanned α)) (y : Option α) : Prop := Option.Rel (fun a b => a.item = b) x y

/-- The cost specification as read. -/
structure CostRead (c : Lima.CostSpec) (r : Raw.CostSpec) : Prop where
  perUnit : NumberRead c.perUnit r.perUnit
  total : NumberRead c.total r.total
  cur : ItemRead c.currency r.cur
  date : ItemRead c.date r.date
  label : ItemRead c.label r.label
  merge : c.merge = r.merge

/-- The number of a price annotation is per unit or in total. -/
def ScopedRead : Lima.Scoped → Raw.PriceSpec → Prop
  | .perUnit e, r => r.perUnit = some e.value ∧ r.total = none
  | .total e, r => r.perUnit = none ∧ r.total = some e.value

/-- The price annotation as read. -/
def PriceRead : Lima.PriceSpec → Raw.PriceSpec → Prop
  | .unspecified, r => r.perUnit = none ∧ r.total = none ∧ r.cur = none
  | .bareCurrency c, r => r.perUnit = none ∧ r.total = none ∧ r.cur = some c
  | .bareAmount a, r => ScopedRead a r ∧ r.cur = none
  | .currencyAmount a c, r => ScopedRead a r ∧ r.cur = some c

/-- The posting as read. -/
structure PostingRead (letter : Char → Str) (p : Spanned Lima.Posting) (r : Raw.PostingSpec) : Prop where
  span : r.span = some p.span
  flag : Option.Rel (fun a b => FlagRead letter a.item b) p.item.flag r.flag
  account : p.item.account.item = r.acc
  amount : NumberRead p.item.amount r.units
  currency : ItemRead p.item.currency r.cur
  cost : Option.Rel (fun a b => CostRead a.item b) p.item.costSpec r.costSpec
  price : Option.Rel (fun a b => PriceRead a.item b) p.item.priceAnnotation r.priceSpec
  attached : AttachedRead p.item.metadata r.tags r.links r.metadata

/-- The kind and content of a directive as read. -/
def VariantRead (letter : Char → Str) : Lima.Variant → Raw.Variant → Prop
  | .transaction f py na ps, .transaction t => FlagRead letter f.item t.flag ∧ ItemRead py t.payee ∧ ItemRead na t.narration ∧
      List.Forall₂ (PostingRead letter) ps t.postings
  | .price c a, .price p => c.item = p.cur ∧ a.number.item.value = p.price.perUnit ∧ p.price.total = none ∧ a.currency.item = p.price.cur
  | .balance acc a t, .balance b => acc.item = b.acc ∧ a.number.item.value = b.units ∧ a.currency.item = b.cur ∧ ItemRead t b.tolerance
  | .opn acc cs m, .opn o => acc.item = o.acc ∧ TextsRead cs o.currencies ∧ ItemRead m o.booking
  | .close acc, .close c => acc.item = c.acc
  | .commodity c, .commodity c' => c.item = c'.cur
  | .pad acc s, .pad p => acc.item = p.acc ∧ s.item = p.source
  | .document acc x, .document d => acc.item = d.acc ∧ x.item = d.path
  | .note acc x, .note n => acc.item = n.acc ∧ x.item = n.comment
  | .event t x, .event e => t.item = e.type_ ∧ x.item = e.description
  | .query n x, .query q => n.item = q.name ∧ x.item = q.content
  | .custom t vs, .custom c => t.item = c.type_ ∧ List.Forall₂ (fun v w => ValueRead v.item w) vs c.values
  | _, _ => False

/-- The directive as read. -/
structure DirectiveRead (letter : Char → Str) (d : Spanned Lima.Directive) (r : Raw.Directive) : Prop where
  span : r.span = some d.span
  date : d.item.date.item = r.date
  attached : AttachedRead d.item.metadata r.tags r.links r.metadata
  variant : VariantRead letter d.item.variant r.variant

/-- The parser accepts names without quotes, backslashes and control characters, and dates of the calendar. -/
def SourceValue : Lima.MetaValue → Prop
  | .simple (.currency x) | .simple (.account x) | .simple (.tag x) | .simple (.link x) => PlainName x
  | .simple (.date x) => CalendarDate x
  | .amount a => PlainName a.currency.item
  | _ => True

/-- The same for tags, links and metadata. -/
structure SourceMetadata (m : Lima.Metadata) : Prop where
  tags : ∀ x ∈ m.tags, PlainName x.item
  links : ∀ x ∈ m.links, PlainName x.item
  keyValues : ∀ x ∈ m.keyValues, PlainName x.1.item ∧ SourceValue x.2.item

/-- The same for the currency of a price annotation. -/
def SourcePrice : Lima.PriceSpec → Prop
  | .bareCurrency c | .currencyAmount _ c => PlainName c
  | _ => True

/-- The same for postings. -/
structure SourcePosting (p : Lima.Posting) : Prop where
  account : PlainName p.account.item
  currency : ∀ x ∈ p.currency, PlainName x.item
  cost : ∀ c ∈ p.costSpec, (∀ x ∈ c.item.currency, PlainName x.item) ∧ ∀ x ∈ c.item.date, CalendarDate x.item
  price : ∀ c ∈ p.priceAnnotation, SourcePrice c.item
  metadata : SourceMetadata p.metadata

/-- The same for the kinds of directives. -/
def SourceVariant : Lima.Variant → Prop
  | .transaction _ _ _ ps => ∀ p ∈ ps, SourcePosting p.item
  | .price c a => PlainName c.item ∧ PlainName a.currency.item
  | .balance acc a _ => PlainName acc.item ∧ PlainName a.currency.item
  | .opn acc cs _ => PlainName acc.item ∧ ∀ c ∈ cs, PlainName c.item
  | .close acc => PlainName acc.item
  | .commodity c => PlainName c.item
  | .pad acc s => PlainName acc.item ∧ PlainName s.item
  | .document acc _ => PlainName acc.item
  | .note acc _ => PlainName acc.item
  | .event _ _ => True
  | .query _ _ => True
  | .custom _ vs => ∀ v ∈ vs, SourceValue v.item

/-- The same for directives. -/
structure SourceOk (d : Lima.Directive) : Prop where
  date : CalendarDate d.date.item
  metadata : SourceMetadata d.metadata
  variant : SourceVariant d.variant

end Spec
end Limabean
