/-
From the parser's types to those of the server: rust/src/api/types/parser_type_conversions.rs.

The parser's types are those of the crate beancount-parser-lima, as far as the conversion reads them: accounts, currencies,
tags, links and keys are given as the text which `into()` yields, an expression by its value and its text. `HashSet` and
`HashMap` are made from the elements in order, and have an arbitrary iteration order, given by `Hashes`.
-/
import Verif.Server.Response

namespace Limabean
namespace Lima

/-- `parser::Spanned`. -/
structure Spanned (α : Type) where
  item : α
  span : Span

/-- `parser::ExprValue`: its value, and how it is written. -/
structure Expr where
  value : Dec
  text : Str

/-- `parser::Flag`. -/
inductive Flag
  | asterisk | exclamation | ampersand | hash | question | percent
  | letter (c : Char)
deriving DecidableEq

/-- `parser::Amount`. -/
structure Amount where
  number : Spanned Expr
  currency : Spanned Str

/-- `parser::ScopedExprValue`. -/
inductive Scoped
  | perUnit (e : Expr)
  | total (e : Expr)

/-- `parser::PriceSpec`. -/
inductive PriceSpec
  | unspecified
  | bareCurrency (cur : Str)
  | bareAmount (amount : Scoped)
  | currencyAmount (amount : Scoped) (cur : Str)

/-- `parser::CostSpec`. -/
structure CostSpec where
  perUnit : Option (Spanned Expr)
  total : Option (Spanned Expr)
  currency : Option (Spanned Str)
  date : Option (Spanned Date)
  label : Option (Spanned Str)
  merge : Bool

/-- `parser::SimpleValue`. -/
inductive SimpleValue
  | string (s : Str)
  | currency (c : Str)
  | account (a : Str)
  | tag (t : Str)
  | link (l : Str)
  | date (d : Date)
  | bool (b : Bool)
  | expr (e : Expr)
  | null

/-- `parser::MetaValue`. -/
inductive MetaValue
  | simple (v : SimpleValue)
  | amount (a : Amount)

/-- `parser::Metadata`. -/
structure Metadata where
  keyValues : List (Spanned Str × Spanned MetaValue)
  tags : List (Spanned Str)
  links : List (Spanned Str)

/-- `parser::Posting`. -/
structure Posting where
  flag : Option (Spanned Flag)
  account : Spanned Str
  amount : Option (Spanned Expr)
  currency : Option (Spanned Str)
  costSpec : Option (Spanned CostSpec)
  priceAnnotation : Option (Spanned PriceSpec)
  metadata : Metadata

/-- `parser::DirectiveVariant` with the types of its variants. -/
inductive Variant
  | transaction (flag : Spanned Flag) (payee narration : Option (Spanned Str)) (postings : List (Spanned Posting))
  | price (currency : Spanned Str) (amount : Amount)
  | balance (account : Spanned Str) (amount : Amount) (tolerance : Option (Spanned Dec))
  | opn (account : Spanned Str) (currencies : List (Spanned Str)) (booking : Option (Spanned Booking))
  | close (account : Spanned Str)
  | commodity (currency : Spanned Str)
  | pad (account source : Spanned Str)
  | document (account path : Spanned Str)
  | note (account comment : Spanned Str)
  | event (eventType description : Spanned Str)
  | query (name content : Spanned Str)
  | custom (type_ : Spanned Str) (values : List (Spanned MetaValue))

/-- `parser::Directive`. -/
structure Directive where
  date : Spanned Date
  metadata : Metadata
  variant : Variant

/-- `parser::Options`, without those which only the parser uses. The five names of account types have defaults. -/
structure Options where
  nameAssets : Str
  nameLiabilities : Str
  nameEquity : Str
  nameIncome : Str
  nameExpenses : Str
  title : Option (Spanned Str) := none
  accountPreviousBalances : Option (Spanned Str) := none
  accountPreviousEarnings : Option (Spanned Str) := none
  accountPreviousConversions : Option (Spanned Str) := none
  accountCurrentEarnings : Option (Spanned Str) := none
  accountCurrentConversions : Option (Spanned Str) := none
  accountUnrealizedGains : Option (Spanned Str) := none
  accountRounding : Option (Spanned Str) := none
  conversionCurrency : Option (Spanned Str) := none
  inferredToleranceDefaults : List (Option Str × Dec) := []
  inferredToleranceMultiplier : Option (Spanned Dec) := none
  inferToleranceFromCost : Option (Spanned Bool) := none
  documents : List Str := []
  operatingCurrency : List Str := []
  renderCommas : Option (Spanned Bool) := none
  bookingMethod : Option (Spanned Booking) := none
  rawPlugins : Option (Spanned Bool) := none

/-- `parser::Plugin`. -/
structure Plugin where
  moduleName : Spanned Str
  config : Option (Spanned Str)

/-- `ParseSuccess`: rust/src/api/server.rs:48-53, 58-69. A warning has the same parts as an error. -/
structure Success where
  directives : List (Spanned Directive)
  options : Options
  plugins : List Plugin
  warnings : List ParserError

end Lima

namespace Convert

open Lima (Spanned)

/-- The iteration orders of the sets and maps, and the text of a flag which is a letter (`Flag::to_string`, of the parser). -/
structure Hashes where
  set : List Str → List Str
  map : List (Str × MetaValue) → List (Str × MetaValue)
  letter : Char → Str

variable (H : Hashes)

/-- `from_flag`: rust/src/api/types/parser_type_conversions.rs:162-174. -/
def flag : Lima.Flag → Str
  | .asterisk => str% "*"
  | .exclamation => str% "!"
  | .ampersand => str% "&"
  | .hash => str% "#"
  | .question => str% "?"
  | .percent => str% "%"
  | .letter c => H.letter c

/-- `CostSpec`: rust/src/api/types/parser_type_conversions.rs:193-204. -/
def costSpec (c : Lima.CostSpec) : Raw.CostSpec :=
  { perUnit := c.perUnit.map fun x => x.item.value
    total := c.total.map fun x => x.item.value
    cur := c.currency.map fun x => x.item
    date := c.date.map fun x => x.item
    label := c.label.map fun x => x.item
    merge := c.merge }

/-- `PriceSpec`: rust/src/api/types/parser_type_conversions.rs:206-244. -/
def priceSpec : Lima.PriceSpec → Raw.PriceSpec
  | .unspecified => {}
  | .bareCurrency cur => { cur := some cur }
  | .bareAmount (.perUnit e) => { perUnit := some e.value }
  | .bareAmount (.total e) => { total := some e.value }
  | .currencyAmount (.perUnit e) cur => { perUnit := some e.value, cur := some cur }
  | .currencyAmount (.total e) cur => { total := some e.value, cur := some cur }

/-- `collect::<HashSet<_>>()`. -/
def collectSet (l : List (Spanned Str)) : List Str := H.set (l.map fun x => x.item).dedup

/-- `from_tags` and `from_links`: rust/src/api/types/parser_type_conversions.rs:246-270. -/
def labels (l : List (Spanned Str)) : Option (List Str) :=
  let s := collectSet H l
  if s.isEmpty then none else some s

/-- `MetaValue`: rust/src/api/types/parser_type_conversions.rs:297-316. -/
def metaValue : Lima.MetaValue → MetaValue
  | .simple (.string x) => .string x
  | .simple (.currency x) => .currency x
  | .simple (.account x) => .account x
  | .simple (.tag x) => .tag x
  | .simple (.link x) => .link x
  | .simple (.date x) => .date x
  | .simple (.bool x) => .bool x
  | .simple (.expr x) => .number x.value
  | .simple .null => .null
  | .amount a => .amount a.number.item.value a.currency.item

/-- `collect::<HashMap<_, _>>()`: a later value replaces an earlier one. -/
def collectMap (l : List (Spanned Str × Spanned Lima.MetaValue)) : AMap Str MetaValue :=
  H.map (l.foldl (fun m kv => AMap.set m kv.1.item (metaValue kv.2.item)) [])

/-- `from_key_values`: rust/src/api/types/parser_type_conversions.rs:272-295. -/
def keyValues (l : List (Spanned Str × Spanned Lima.MetaValue)) : Option (List (Str × MetaValue)) :=
  let m := collectMap H l
  if m.isEmpty then none else some m

/-- `PostingSpec`: rust/src/api/types/parser_type_conversions.rs:176-191. -/
def posting (p : Spanned Lima.Posting) : Raw.PostingSpec :=
  { span := some p.span
    flag := p.item.flag.map fun x => flag H x.item
    acc := p.item.account.item
    units := p.item.amount.map fun x => x.item.value
    cur := p.item.currency.map fun x => x.item
    costSpec := p.item.costSpec.map fun x => costSpec x.item
    priceSpec := p.item.priceAnnotation.map fun x => priceSpec x.item
    tags := labels H p.item.metadata.tags
    links := labels H p.item.metadata.links
    metadata := keyValues H p.item.metadata.keyValues }

/-- `DirectiveVariant` and its variants: rust/src/api/types/parser_type_conversions.rs:24-160. -/
def variant : Lima.Variant → Raw.Variant
  | .transaction f payee narration postings => .transaction
    { flag := flag H f.item
      payee := payee.map fun x => x.item
      narration := narration.map fun x => x.item
      postings := postings.map (posting H) }
  | .price cur amount => .price
    { cur := cur.item, price := { perUnit := amount.number.item.value, total := none, cur := amount.currency.item } }
  | .balance acc amount tolerance => .balance
    { acc := acc.item, units := amount.number.item.value, cur := amount.currency.item
      tolerance := tolerance.map fun x => x.item }
  | .opn acc currencies booking => .opn
    { acc := acc.item
      currencies := if currencies.length > 0 then some (collectSet H currencies) else none
      booking := booking.map fun x => x.item }
  | .close acc => .close { acc := acc.item }
  | .commodity cur => .commodity { cur := cur.item }
  | .pad acc source => .pad { acc := acc.item, source := source.item }
  | .document acc path => .document { acc := acc.item, path := path.item }
  | .note acc comment => .note { acc := acc.item, comment := comment.item }
  | .event type_ description => .event { type_ := type_.item, description := description.item }
  | .query name content => .query { name := name.item, content := content.item }
  | .custom type_ values => .custom { type_ := type_.item, values := values.map fun v => metaValue v.item }

/-- `Directive`: rust/src/api/types/parser_type_conversions.rs:11-22. -/
def directive (d : Spanned Lima.Directive) : Raw.Directive :=
  { span := some d.span
    date := d.item.date.item
    variant := variant H d.item.variant
    tags := labels H d.item.metadata.tags
    links := labels H d.item.metadata.links
    metadata := keyValues H d.item.metadata.keyValues }

/-- The options which limabean does not read, as it sends them: rust/src/api/types/parser_type_conversions.rs:337-380,
rust/src/api/types/raw.rs:244-289. -/
def otherOptions (o : Lima.Options) : List (Str × Json) :=
  let text (k : Str) (x : Option (Spanned Str)) := Json.entry k x fun x => .str x.item
  let texts (k : Str) (l : List Str) :=
    Json.entry k (if (H.set l.dedup).isEmpty then none else some (H.set l.dedup)) fun l => .arr (l.map .str)
  text (str% "title") o.title ++
  text (str% "account-previous-balances") o.accountPreviousBalances ++
  text (str% "account-previous-earnings") o.accountPreviousEarnings ++
  text (str% "account-previous-conversions") o.accountPreviousConversions ++
  text (str% "account-current-earnings") o.accountCurrentEarnings ++
  text (str% "account-current-conversions") o.accountCurrentConversions ++
  text (str% "account-unrealized-gains") o.accountUnrealizedGains ++
  text (str% "account-rounding") o.accountRounding ++
  text (str% "conversion-currency") o.conversionCurrency ++
  texts (str% "documents") o.documents ++
  texts (str% "operating-currency") o.operatingCurrency ++
  Json.entry (str% "render-commas") o.renderCommas fun x => .bool x.item

/-- `Options`: rust/src/api/types/parser_type_conversions.rs:318-383. The tolerances are split in two when they are sent. -/
def options (o : Lima.Options) : LedgerOptions :=
  { nameAssets := o.nameAssets, nameLiabilities := o.nameLiabilities, nameEquity := o.nameEquity
    nameIncome := o.nameIncome, nameExpenses := o.nameExpenses
    bookingMethod := o.bookingMethod.map fun x => x.item
    rawPlugins := o.rawPlugins.map fun x => x.item
    tolerance :=
      { multiplier := o.inferredToleranceMultiplier.map fun x => x.item
        defaults := o.inferredToleranceDefaults
        fromCost := o.inferToleranceFromCost.map fun x => x.item }
    others := otherOptions H o }

/-- `Plugin`: rust/src/api/types/parser_type_conversions.rs:421-428. -/
def plugin (p : Lima.Plugin) : Str × Option Str := (p.moduleName.item, p.config.map fun x => x.item)

/-- What the server holds of a successful parse, in converted form: rust/src/api/server.rs:48-53, 202-265, 335-398. The warnings
are not read by any method. -/
def parsed (s : Lima.Success) : Parsed :=
  { directives := s.directives.map (directive H), options := options H s.options, plugins := s.plugins.map plugin }

end Convert
end Limabean
