/-
Reports on the ledger which the front end has loaded: clj/src/limabean.clj, clj/src/limabean/core/xf.clj,
clj/src/limabean/core/registry.clj, clj/src/limabean/core/journal.clj.

The reports work on Clojure maps. Here they read the fields which they use, and go on with the values as in `Clj/Inventory` and
`Clj/Reports`; that the values there are those which were booked is C70. `none` stands for an exception, and for data which these
functions are not made for: postings without account, units or currency, fields of another type. An entry `:cost` which is `nil` is
taken for none.
-/
import Verif.Clj.Loader
import Verif.Clj.Reports

namespace Limabean
namespace Clj

namespace Data

/-- The string, if it is one. -/
def str? : Data → Option Str
  | .str s => some s
  | _ => none

/-- The number, if it is one. -/
def num? : Data → Option Dec
  | .num d => some d
  | _ => none

/-- The date, if it is one. -/
def date? : Data → Option Date
  | .date d => some d
  | _ => none

/-- `(select-keys m ks)`. -/
def selectKeys (m : Data) (ks : List Str) : Data := ks.foldl (copyField m) (.map [])

/-- `(merge m m')`. The order of the entries of the result is another one. -/
def mergeMap (m m' : Data) : Data :=
  match m' with
  | .map l => l.foldr (fun p m => m.assoc p.1 p.2) m
  | _ => m

/-- `(dissoc m k)`. -/
def dissoc (m : Data) (k : Str) : Data :=
  match m with
  | .map l => .map (AMap.del l k)
  | x => x

end Data

/-- The fields which filters read: clj/src/limabean/core/filters.clj. -/
def fieldsOf (x : Data) : Fields :=
  { date := (x.get (str% "date")).date?, acc := (x.get (str% "acc")).str?, cur := (x.get (str% "cur")).str?
    payee := (x.get (str% "payee")).str?, narration := (x.get (str% "narration")).str? }

/-- `postings`: clj/src/limabean/core/xf.clj:8-14. -/
def postingMaps (ds : List Data) : List Data :=
  (ds.filter fun d => isKw (d.get (str% "dct")) (str% "txn")).flatMap fun d =>
    (d.get (str% "postings")).elems.map fun pst =>
      (d.selectKeys [str% "date", str% "payee", str% "narration"]).mergeMap pst

/-- `postings` with filters: clj/src/limabean.clj:14-16. -/
def selectedMaps (fs : List Filter) (ds : List Data) : List Data := allOf fieldsOf fs (postingMaps ds)

/-- The cost: clj/src/limabean/core/inventory.clj:71-73. -/
def costOf (x : Data) : Option Booked.Cost :=
  match (x.get (str% "date")).date?, (x.get (str% "per-unit")).num?, (x.get (str% "total")).num?, (x.get (str% "cur")).str? with
  | some date, some perUnit, some total, some cur =>
    some { date := date, perUnit := perUnit, total := total, cur := cur, label := (x.get (str% "label")).str?
           merge := (x.get (str% "merge")).truthy }
  | _, _, _, _ => none

/-- The entry `:cost`, if there is one. -/
def costEntry (x : Data) : Option (Option Booked.Cost) :=
  match x.get (str% "cost") with
  | .nil => some none
  | c => (costOf c).map some

/-- `(select-keys p [:units :cur :cost])`: clj/src/limabean/core/inventory.clj:133-135. -/
def positionOfMap (x : Data) : Option Position :=
  match (x.get (str% "units")).num?, (x.get (str% "cur")).str?, costEntry x with
  | some units, some cur, some cost => some { units := units, cur := cur, cost := cost }
  | _, _, _ => none

/-- What `build` reads of a posting: clj/src/limabean/core/inventory.clj:189-195. -/
def accountPosition (x : Data) : Option Booked.Posting :=
  match (x.get (str% "acc")).str?, positionOfMap x with
  | some acc, some p => some { acc := acc, units := p.units, cur := p.cur, cost := p.cost }
  | _, _ => none

/-! ### The registry -/

/-- The booking methods given by open directives: clj/src/limabean/core/registry.clj:11-19. -/
def registryAccsOf (ds : List Data) : AMap Str Data :=
  ds.foldl (fun m d =>
    if isKw (d.get (str% "dct")) (str% "open") && (d.get (str% "booking")).truthy then
      m.set (((d.get (str% "acc")).str?).getD []) (d.get (str% "booking"))
    else m) []

/-- The frequencies of currencies: clj/src/limabean/core/registry.clj:20-31. -/
def registryFreqOf (ds : List Data) : AMap Str Nat :=
  ds.foldl (fun m d =>
    if isKw (d.get (str% "dct")) (str% "txn") then
      (d.get (str% "postings")).elems.foldl (fun m p =>
        m.set (((p.get (str% "cur")).str?).getD []) ((m.get (((p.get (str% "cur")).str?).getD [])).getD 0 + 1)) m
    else m) []

/-- `build`: clj/src/limabean/core/registry.clj:6-44; `order` is the iteration order of the map of frequencies. The accounts, which
are strings, are given as the keys of a map. -/
def registryOf (order : AMap Str Nat → AMap Str Nat) (ds : List Data) (options : Data) : Data :=
  .map [(str% "default-booking", if options.has (str% "booking") then options.get (str% "booking") else .kw (str% "strict")),
    (str% "accs", .map ((registryAccsOf ds).map fun x => (x.1, .map [(str% "booking", x.2)]))),
    (str% "curs", .vec ((sortBy cmpFreq (order (registryFreqOf ds))).map fun x => .str x.1))]

/-- `acc-booking`: clj/src/limabean/core/registry.clj:46-49. -/
def accBookingOf (reg : Data) (acc : Str) : Data :=
  if ((reg.get (str% "accs")).get acc).has (str% "booking") then ((reg.get (str% "accs")).get acc).get (str% "booking")
  else reg.get (str% "default-booking")

/-- The booking method which a keyword names: clj/src/limabean/core/inventory.clj:62-67. Anything else is as unsupported as
`:average`. -/
def methodOf (x : Data) : Booking :=
  match x with
  | .kw s => (Wire.decBooking (.str s)).getD .average
  | _ => .average

/-! ### Reports -/

variable {E : Ext}

/-- `inventory`: clj/src/limabean.clj:18-23, clj/src/limabean/user.clj:49-52. -/
def LoadedBeans.inventory (m : LoadedBeans E) (fs : List Filter) : Option (AMap Str (List Position)) :=
  (Json.all accountPosition (selectedMaps fs (m.directives.getD []))).bind fun ps =>
    buildInventory ps fun acc => methodOf (accBookingOf (m.registry.getD .nil) acc)

/-- The filter for the accounts below those which these options name: clj/src/limabean.clj:41-44. Options which are not there
name none. -/
def LoadedBeans.below (m : LoadedBeans E) (names : List Str) : Filter :=
  subAcc (names.filterMap fun k => (m.options.get k).str?)

/-- `balances`: clj/src/limabean.clj:37-44. -/
def LoadedBeans.balances (m : LoadedBeans E) (fs : List Filter) : Option (AMap Str (List Position)) :=
  m.inventory (fs ++ [m.below [str% "name-assets", str% "name-liabilities"]])

/-- `income-statement`: clj/src/limabean.clj:46-56. -/
def LoadedBeans.incomeStatement (m : LoadedBeans E) (fs : List Filter) : Option (AMap Str (List Position)) :=
  m.inventory (fs ++ [m.below [str% "name-income", str% "name-expenses"]])

/-- The loop of `with-bal`: clj/src/limabean/core/journal.clj:9-26. An entry is the posting without cost, and the balance. -/
def withBalOf : Inv → List Data → Option (List (Data × List Position))
  | _, [] => some []
  | state, x :: xs =>
    match positionOfMap (x.dissoc (str% "cost")) with
    | none => none
    | some p => (withBalOf (state.accumulate p) xs).map ((x.dissoc (str% "cost"), (state.accumulate p).positions) :: ·)

/-- `journal`: clj/src/limabean.clj:58-63, clj/src/limabean/core/journal.clj:28-31. -/
def LoadedBeans.journal (m : LoadedBeans E) (fs : List Filter) : Option (List (Data × List Position)) :=
  withBalOf { rule := .append } (selectedMaps fs (m.directives.getD []))

end Clj
end Limabean
