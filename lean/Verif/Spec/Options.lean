/-
What the options of a beanfile are in the session: the map `*options*`, clj/src/limabean/user.clj:18, by the names of the options.
-/
import Verif.Spec.ClientData
import Verif.Server.Convert

namespace Limabean
namespace Spec

open Clj

/-- The default tolerance for a currency, or for all others: of several lines in the beanfile the last counts. -/
def lastDefault (l : List (Option Str × Dec)) (c : Option Str) : Option Dec := ((l.filter fun p => p.1 = c).getLast?).map Prod.snd

/-- A value, or nothing. -/
def orNil {α : Type} (x : Option α) (f : α → Data) : Data := match x with
  | some a => f a
  | none => .nil

/-- An option which may be given several times: all values, each once, in any order; nothing if it was not given. -/
def ShowsAll (l : List Str) (x : Data) : Prop :=
  (l = [] → x = .nil) ∧ (l ≠ [] → ∃ ts : List Str, x = .vec (ts.map .str) ∧ ts.Nodup ∧ ∀ t, t ∈ ts ↔ t ∈ l)

/-- The options by their names: rust/src/api/types/raw.rs:244-289. -/
def allOptionNames : List Str :=
  [str% "name-assets", str% "name-liabilities", str% "name-equity", str% "name-income", str% "name-expenses", str% "title",
   str% "account-previous-balances", str% "account-previous-earnings", str% "account-previous-conversions", str% "account-current-earnings",
   str% "account-current-conversions", str% "account-unrealized-gains", str% "account-rounding", str% "conversion-currency",
   str% "inferred-tolerance-default", str% "inferred-tolerance-default-fallback", str% "inferred-tolerance-multiplier",
   str% "infer-tolerance-from-cost", str% "documents", str% "operating-currency", str% "render-commas", str% "booking-method",
   str% "plugin-processing-mode"]

/-- The map shows the options of the beanfile, each under its name, and nothing else. -/
structure ShowsOptions (o : Lima.Options) (x : Data) : Prop where
  assets : x.get (str% "name-assets") = .str o.nameAssets
  liabilities : x.get (str% "name-liabilities") = .str o.nameLiabilities
  equity : x.get (str% "name-equity") = .str o.nameEquity
  income : x.get (str% "name-income") = .str o.nameIncome
  expenses : x.get (str% "name-expenses") = .str o.nameExpenses
  title : x.get (str% "title") = orNil o.title fun t => .str t.item
  previousBalances : x.get (str% "account-previous-balances") = orNil o.accountPreviousBalances fun t => .str t.item
  previousEarnings : x.get (str% "account-previous-earnings") = orNil o.accountPreviousEarnings fun t => .str t.item
  previousConversions : x.get (str% "account-previous-conversions") = orNil o.accountPreviousConversions fun t => .str t.item
  currentEarnings : x.get (str% "account-current-earnings") = orNil o.accountCurrentEarnings fun t => .str t.item
  currentConversions : x.get (str% "account-current-conversions") = orNil o.accountCurrentConversions fun t => .str t.item
  unrealizedGains : x.get (str% "account-unrealized-gains") = orNil o.accountUnrealizedGains fun t => .str t.item
  rounding : x.get (str% "account-rounding") = orNil o.accountRounding fun t => .str t.item
  conversionCurrency : x.get (str% "conversion-currency") = orNil o.conversionCurrency fun t => .str t.item
  toleranceOf : ∀ c, (x.get (str% "inferred-tolerance-default")).get c = orNil (lastDefault o.inferredToleranceDefaults (some c)) .num
  toleranceElse : x.get (str% "inferred-tolerance-default-fallback") = orNil (lastDefault o.inferredToleranceDefaults none) .num
  multiplier : x.get (str% "inferred-tolerance-multiplier") = orNil o.inferredToleranceMultiplier fun d => .num d.item
  fromCost : x.get (str% "infer-tolerance-from-cost") = orNil o.inferToleranceFromCost fun b => .bool b.item
  documents : ShowsAll o.documents (x.get (str% "documents"))
  operatingCurrency : ShowsAll o.operatingCurrency (x.get (str% "operating-currency"))
  renderCommas : x.get (str% "render-commas") = orNil o.renderCommas fun b => .bool b.item
  bookingMethod : x.get (str% "booking-method") = orNil o.bookingMethod fun b => .str (bookingName b.item)
  pluginMode : x.get (str% "plugin-processing-mode") = orNil o.rawPlugins fun b => .str (if b.item then str% "raw" else str% "default")
  only : ∀ k, x.has k = true → k ∈ allOptionNames

end Spec
end Limabean
