/-
Inventories: clj/src/limabean/core/inventory.clj.

The functions work on booked postings, which always have units and a currency. A Clojure map is an association list; where
the code iterates over one it sorts the keys first. `none` stands for an exception.
-/
import Verif.Clj.Order
import Verif.Basic.AMap

namespace Limabean
namespace Clj

/-- A position: the keys `:units`, `:cur` and `:cost` of a posting, clj/src/limabean/core/inventory.clj:133-134. -/
structure Position where
  units : Dec
  cur : Str
  cost : Option Booked.Cost := none
deriving DecidableEq, Repr

/-- The key of a cost: clj/src/limabean/core/inventory.clj:73. Clojure's `=` on two big decimals is by value, as is the hash; but a
number which the server writes without decimal places arrives as an integer, and `=` between an integer and a big decimal is
false. -/
structure CostKey where
  date : Date
  cur : Str
  perUnit : ℚ
  label : Option Str
  merge : Bool
  isInt : Bool
deriving DecidableEq

/-- `position-key`: clj/src/limabean/core/inventory.clj:68-74; `none` is the empty vector. -/
def positionKey (p : Position) : Option CostKey :=
  p.cost.map fun c =>
    { date := c.date, cur := c.cur, perUnit := c.perUnit.val, label := c.label, merge := c.merge, isInt := c.perUnit.s = 0 }

/-- `compare-nil-first`: clj/src/limabean/core/inventory.clj:16-27; also `compare-empty-first-or*`, lines 8-14. -/
def nilFirst {α : Type} (cmp : α → α → Ordering) : Option α → Option α → Ordering
  | none, none => .eq
  | none, some _ => .lt
  | some _, none => .gt
  | some a, some b => cmp a b

/-- The flag `:merge` is true or absent. -/
def mergeFlag (b : Bool) : Option Unit := if b then some () else none

/-- `compare-cost-keys`: clj/src/limabean/core/inventory.clj:39-60. `compare` on numbers is by value, also between integers and big
decimals. -/
def compareCostKeys : Option CostKey → Option CostKey → Ordering :=
  nilFirst fun x y =>
    (cmpDate x.date y.date).then ((cmpStr x.cur y.cur).then ((compare x.perUnit y.perUnit).then
      ((nilFirst cmpStr x.label y.label).then
        (nilFirst (fun _ _ => .eq) (mergeFlag x.merge) (mergeFlag y.merge)))))

/-- The rules for combining positions. -/
inductive Rule
  | merge
  | append
deriving DecidableEq, Repr

/-- `booking-rule`: clj/src/limabean/core/inventory.clj:62-67. -/
def bookingRule : Booking → Option Rule
  | .strict | .strictWithSize | .fifo | .lifo | .hifo => some .merge
  | .none => some .append
  | .average => none

/-- `single-currency-accumulator`: clj/src/limabean/core/inventory.clj:80-112. -/
inductive Sca
  | merge (positions : AMap (Option CostKey) Position)
  | append (simple : Option Position) (atCost : List Position)
deriving DecidableEq

/-- The initial accumulator: clj/src/limabean/core/inventory.clj:98, 112. -/
def Sca.init : Rule → Sca
  | .merge => .merge []
  | .append => .append none []

/-- `update-or-set`: clj/src/limabean/core/inventory.clj:76-78. -/
def updateOrSet {K V : Type} [DecidableEq K] (m : AMap K V) (k : K) (f : V → V) (v1 : V) : AMap K V :=
  match m.get k with
  | some v0 => m.set k (f v0)
  | none => m.set k v1

/-- `sca-accumulate`: clj/src/limabean/core/inventory.clj:84-91, 99-106, 114-117. -/
def Sca.accumulate : Sca → Position → Sca
  | .merge positions, p1 =>
    .merge (updateOrSet positions (positionKey p1) (fun p0 => { p0 with units := p0.units.add p1.units }) p1)
  | .append simple atCost, p1 =>
    if p1.cost.isSome then .append simple (atCost ++ [p1])
    else match simple with
      | some p0 => .append (some { p0 with units := p0.units.add p1.units }) atCost
      | none => .append (some p1) atCost

/-- The order in which `sca-reduce` visits the positions: clj/src/limabean/core/inventory.clj:92-97, 107-111, 119-121. Keys which
compare equal without being equal stay in the order of the map's keys; here that of insertion, which in Clojure holds for up to
eight keys. -/
def Sca.visit : Sca → List Position
  | .merge positions => (sortBy compareCostKeys positions.keys).filterMap positions.get
  | .append simple atCost => simple.toList ++ atCost

/-- An inventory accumulator: clj/src/limabean/core/inventory.clj:123-125. -/
structure Inv where
  rule : Rule
  scas : AMap Str Sca := []

/-- `accumulator`: clj/src/limabean/core/inventory.clj:123-125. -/
def accumulator (booking : Booking) : Option Inv := (bookingRule booking).map fun r => { rule := r }

/-- `accumulate`: clj/src/limabean/core/inventory.clj:127-138. -/
def Inv.accumulate (inv : Inv) (p : Position) : Inv :=
  { inv with scas := inv.scas.set p.cur (((inv.scas.get p.cur).getD (.init inv.rule)).accumulate p) }

/-- `positions`: clj/src/limabean/core/inventory.clj:140-154. -/
def Inv.positions (inv : Inv) : List Position :=
  (sortBy cmpStr inv.scas.keys).flatMap fun cur =>
    (((inv.scas.get cur).map Sca.visit).getD []).filter fun p => !p.units.isZero

/-- The loop of `positions->units-by-currency`: clj/src/limabean/core/inventory.clj:156-162. -/
def unitsByCurrency (ps : List Position) : AMap Str Dec :=
  ps.foldl (fun m p => m.set p.cur (((m.get p.cur).getD Dec.zero).add p.units)) []

/-- `positions->currencies`: clj/src/limabean/core/inventory.clj:164-168. -/
def positionsCurrencies (ps : List Position) : List Str := sortBy cmpStr (unitsByCurrency ps).keys

/-- `positions->units`: clj/src/limabean/core/inventory.clj:170-175. -/
def positionsUnits (ps : List Position) : List Position :=
  (positionsCurrencies ps).map fun cur => { units := ((unitsByCurrency ps).get cur).getD Dec.zero, cur := cur }

/-- `positions->units-of`: clj/src/limabean/core/inventory.clj:177-180. -/
def positionsUnitsOf (ps : List Position) (cur : Str) : Dec := ((unitsByCurrency ps).get cur).getD Dec.zero

/-- `select-keys p [:units :cur :cost]`: clj/src/limabean/core/inventory.clj:134. -/
def positionOf (p : Booked.Posting) : Position := { units := p.units, cur := p.cur, cost := p.cost }

/-- The accumulator of an account, or a new one: clj/src/limabean/core/inventory.clj:191-193. -/
def lookupOrNew (booking : Str → Booking) (m : AMap Str Inv) (acc : Str) : Option Inv :=
  match m.get acc with
  | some inv => some inv
  | none => accumulator (booking acc)

/-- The first loop of `build`: clj/src/limabean/core/inventory.clj:187-196. -/
def cumulate (booking : Str → Booking) : List Booked.Posting → AMap Str Inv → Option (AMap Str Inv)
  | [], m => some m
  | p :: ps, m =>
    match lookupOrNew booking m p.acc with
    | none => none
    | some inv => cumulate booking ps (m.set p.acc (inv.accumulate (positionOf p)))

/-- The second loop of `build`: clj/src/limabean/core/inventory.clj:197-207. The result is a map; its entries are given in
the order of insertion. -/
def nonEmpty (m : AMap Str Inv) : AMap Str (List Position) :=
  (sortBy cmpStr m.keys).filterMap fun acc =>
    let ps := ((m.get acc).map Inv.positions).getD []
    if ps.isEmpty then none else some (acc, ps)

/-- `build`: clj/src/limabean/core/inventory.clj:182-207. -/
def buildInventory (postings : List Booked.Posting) (booking : Str → Booking) : Option (AMap Str (List Position)) :=
  (cumulate booking postings []).map nonEmpty

/-- `cur-freq`: clj/src/limabean/core/inventory.clj:209-217. -/
def curFreq (inv : AMap Str (List Position)) : AMap Str Nat :=
  inv.foldl (fun m x => (positionsCurrencies x.2).foldl (fun m cur => m.set cur ((m.get cur).getD 0 + 1)) m) []

end Clj
end Limabean
