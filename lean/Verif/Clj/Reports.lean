/-
Reports: clj/src/limabean.clj, clj/src/limabean/core/journal.clj, clj/src/limabean/core/rollup.clj.
-/
import Verif.Clj.Inventory
import Verif.Clj.Filters
import Verif.Clj.Registry

namespace Limabean
namespace Clj

/-- The parts of a loaded ledger which reports use: clj/src/limabean/adapter/loader.clj:191-195. -/
structure Beans where
  directives : List Booked.Directive
  options : LedgerOptions
  registry : Registry

/-- `postings`: clj/src/limabean.clj:14-16. -/
def reportRows (ds : List Booked.Directive) (fs : List Filter) : List Row := allOf Row.fields fs (postingRows ds)

/-- `inventory`: clj/src/limabean.clj:18-23. -/
def inventory (b : Beans) (fs : List Filter) : Option (AMap Str (List Position)) :=
  buildInventory ((reportRows b.directives fs).map Row.posting) b.registry.accBooking

/-- `balances`: clj/src/limabean.clj:37-44. -/
def balances (b : Beans) (fs : List Filter) : Option (AMap Str (List Position)) :=
  inventory b (fs ++ [subAcc [b.options.nameAssets, b.options.nameLiabilities]])

/-- `income-statement`: clj/src/limabean.clj:46-56. -/
def incomeStatement (b : Beans) (fs : List Filter) : Option (AMap Str (List Position)) :=
  inventory b (fs ++ [subAcc [b.options.nameIncome, b.options.nameExpenses]])

/-! ### Journal -/

/-- A row of a journal, without cost and with the running balance: clj/src/limabean/core/journal.clj:22-26. -/
structure JournalEntry where
  row : Row
  bal : List Position
deriving DecidableEq

/-- `dissoc :cost`: clj/src/limabean/core/journal.clj:22. -/
def Row.withoutCost (r : Row) : Row := { r with posting := { r.posting with cost := none } }

/-- `with-bal`: clj/src/limabean/core/journal.clj:9-26. -/
def withBal : Inv → List Row → List JournalEntry
  | _, [] => []
  | state, r :: rs =>
    let accumulated := state.accumulate (positionOf r.withoutCost.posting)
    { row := r.withoutCost, bal := accumulated.positions } :: withBal accumulated rs

/-- `build`: clj/src/limabean/core/journal.clj:28-31. -/
def journalBuild (rows : List Row) : List JournalEntry := withBal { rule := .append } rows

/-- `journal`: clj/src/limabean.clj:58-63. -/
def journal (b : Beans) (fs : List Filter) : List JournalEntry := journalBuild (reportRows b.directives fs)

/-! ### Rollup -/

/-- `account-units`: clj/src/limabean/core/rollup.clj:9-15, 43. -/
def itemUnits (inv : AMap Str (List Position)) (cur : Str) : AMap Str Dec :=
  inv.filterMap fun x =>
    let units := positionsUnitsOf x.2 cur
    if units.isZero then none else some (x.1, units)

/-- `str/split acc #":"`, with Java's removal of trailing empty strings. -/
def splitColon (s : Str) : List Str :=
  let l := s.splitOn ':'
  if l.length = 1 then l else (l.reverse.dropWhile List.isEmpty).reverse

/-- The step of `account-and-ancestors`: clj/src/limabean/core/rollup.clj:20-24. -/
def ancestorStep (x : List Str × Str) (c : Str) : List Str × Str :=
  if x.1.isEmpty then ([c], c) else (x.1 ++ [x.2 ++ str% ":" ++ c], x.2 ++ str% ":" ++ c)

/-- `account-and-ancestors`: clj/src/limabean/core/rollup.clj:17-27. -/
def accountAndAncestors (acc : Str) : List Str := ((splitColon acc).foldl ancestorStep ([], [])).1

/-- `account-depth`: clj/src/limabean/core/rollup.clj:29-32. -/
def accountDepth (acc : Str) : Nat := (acc.filter (· == ':')).length

/-- The totals: clj/src/limabean/core/rollup.clj:34-38, 44-47. -/
def ancestorUnits (items : AMap Str Dec) : AMap Str Dec :=
  (items.flatMap fun x => (accountAndAncestors x.1).map fun a => (a, x.2)).foldl
    (fun r x => r.set x.1 (x.2.add ((r.get x.1).getD Dec.zero))) []

/-- The greatest depth: clj/src/limabean/core/rollup.clj:48-49. -/
def maxDepth (items : AMap Str Dec) : Nat := (items.keys.map accountDepth).foldl max 0

/-- An entry: own units with their column, and the total with its column. -/
structure RollupEntry where
  item : Option (Dec × Nat) := none
  total : Option (Dec × Nat) := none
deriving DecidableEq

/-- `not=` on numbers or nil: clj/src/limabean/core/rollup.clj:61-62. -/
def differ : Option Dec → Option Dec → Bool
  | some a, some b => !a.eqv b
  | none, none => false
  | _, _ => true

/-- One entry: clj/src/limabean/core/rollup.clj:51-66. -/
def rollupEntry (items totals : AMap Str Dec) (acc : Str) : RollupEntry :=
  { item := (items.get acc).map fun u => (u, maxDepth items)
    total := if totals.has acc && differ (items.get acc) (totals.get acc) then
      (totals.get acc).map fun u => (u, accountDepth acc) else none }

/-- `build`: clj/src/limabean/core/rollup.clj:40-68. -/
def rollupBuild (inv : AMap Str (List Position)) (cur : Str) : AMap Str RollupEntry :=
  let items := itemUnits inv cur
  let totals := ancestorUnits items
  (items.keys ++ totals.keys).foldl (fun r acc => r.set acc (rollupEntry items totals acc)) []

/-- `max-key`: the last of those with the greatest value. -/
def maxKey : List (Str × Nat) → Option (Str × Nat)
  | [] => none
  | x :: l => some (l.foldl (fun v w => if v.2 > w.2 then v else w) x)

/-- `rollup`: clj/src/limabean.clj:25-35. `order` is the iteration order of the map of frequencies; `none` is the exception of
`max-key` without arguments. -/
def rollup (order : AMap Str Nat → AMap Str Nat) (inv : AMap Str (List Position)) : Option (AMap Str RollupEntry) :=
  (maxKey (order (curFreq inv))).map fun x => rollupBuild inv x.1

/-- The cells of a displayed entry, with `none` for `EMPTY`: clj/src/limabean/core/rollup.clj:70-82. As in the code, a negative
number of repetitions is none. -/
def entryCells (e : RollupEntry) : List (Option Dec) :=
  let totalCells := match e.total with
    | some (u, d) => List.replicate d none ++ [some u]
    | none => []
  let totalWidth := match e.total with
    | some (_, d) => d + 1
    | none => 0
  let itemCells := match e.item with
    | some (u, d) => List.replicate (d - totalWidth) none ++ [some u]
    | none => []
  totalCells ++ itemCells

end Clj
end Limabean
