/-
The registry: clj/src/limabean/core/registry.clj.
-/
import Verif.Clj.Order
import Verif.Basic.AMap
import Verif.Server.Response

namespace Limabean
namespace Clj

/-- The names of the options no part of the server reads: rust/src/api/types/raw.rs:253-284, in kebab case. -/
def otherOptionNames : List Str :=
  [str% "title", str% "account-previous-balances", str% "account-previous-earnings", str% "account-previous-conversions",
   str% "account-current-earnings", str% "account-current-conversions", str% "account-unrealized-gains",
   str% "account-rounding", str% "conversion-currency", str% "documents", str% "operating-currency", str% "render-commas"]

/-- The map of options which the client receives: rust/src/api/types/raw.rs:244-289. -/
def optionsMap (o : LedgerOptions) : List (Str × Json) := Wire.optionEntries o

/-- The other options carry the names which the server gives them. -/
def OptionsNamed (o : LedgerOptions) : Prop := ∀ x ∈ o.others, x.1 ∈ otherOptionNames

/-- The registry: clj/src/limabean/core/registry.clj:44. -/
structure Registry where
  defaultBooking : Booking
  accs : AMap Str Booking
  curs : List Str
deriving DecidableEq

/-- The default booking method: clj/src/limabean/core/registry.clj:9; a value which names no method is taken for strict. -/
def registryDefault (options : List (Str × Json)) : Booking :=
  (((options.find? fun x => x.1 == str% "booking").map Prod.snd).bind Wire.decBooking).getD .strict

/-- The booking methods given by open directives: clj/src/limabean/core/registry.clj:11-19. -/
def registryAccs (ds : List Booked.Directive) : AMap Str Booking :=
  ds.foldl (fun m d => match d.variant with
    | .opn o => match o.booking with
      | some b => m.set o.acc b
      | none => m
    | _ => m) []

/-- The frequencies of currencies: clj/src/limabean/core/registry.clj:20-31. -/
def registryFreq (ds : List Booked.Directive) : AMap Str Nat :=
  ds.foldl (fun m d => match d.variant with
    | .transaction t => t.postings.foldl (fun m p => m.set p.cur ((m.get p.cur).getD 0 + 1)) m
    | _ => m) []

/-- The comparator of `(comp - second)`: clj/src/limabean/core/registry.clj:37. -/
def cmpFreq (a b : Str × Nat) : Ordering := compare b.2 a.2

/-- `build`: clj/src/limabean/core/registry.clj:6-44; `order` is the iteration order of the map of frequencies. -/
def registryBuild (order : AMap Str Nat → AMap Str Nat) (ds : List Booked.Directive) (options : List (Str × Json)) :
    Registry :=
  { defaultBooking := registryDefault options, accs := registryAccs ds,
    curs := (sortBy cmpFreq (order (registryFreq ds))).map Prod.fst }

/-- `acc-booking`: clj/src/limabean/core/registry.clj:46-49. -/
def Registry.accBooking (r : Registry) (acc : Str) : Booking := (r.accs.get acc).getD r.defaultBooking

end Clj
end Limabean
