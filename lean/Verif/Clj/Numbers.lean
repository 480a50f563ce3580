/-
Inventories and journals with the numbers of the JVM: clj/src/limabean/core/inventory.clj, clj/src/limabean/core/journal.clj.

`Clj/Inventory` and `Clj/Reports` add exactly. Clojure's `+` adds two integers of 64 bits to an integer of 64 bits, and throws an
exception if the sum does not fit. The functions here are those of `Clj/Inventory` and `Clj/Reports` again, with that addition; `none`
stands for an exception. Other sums (`positions->units-by-currency`, clj/src/limabean/core/inventory.clj:156-162, and the totals of a
rollup, clj/src/limabean/core/rollup.clj:44-47) start with `0M`, and so never add two integers.
-/
import Verif.Clj.Reports

namespace Limabean
namespace Clj

/-- A number as the JVM has it. -/
inductive Num
  /-- `Integer` or `Long` -/
  | long (n : Int)
  /-- `BigInteger` or `BigInt` -/
  | big (n : Int)
  /-- `BigDecimal`, with its scale -/
  | dec (m : Int) (s : Nat)
deriving DecidableEq, Repr

/-- The integers of 64 bits. -/
def isLong (n : Int) : Bool := decide (-2 ^ 63 ≤ n) && decide (n < 2 ^ 63)

/-- What cheshire makes of a number which the server writes: clj/src/limabean/adapter/pod.clj:49-56. -/
def Num.read (d : Dec) : Num := if d.s = 0 then (if isLong d.m then .long d.m else .big d.m) else .dec d.m d.s

/-- The decimal which it denotes. -/
def Num.toDec : Num → Dec
  | .long n => ⟨n, 0⟩
  | .big n => ⟨n, 0⟩
  | .dec m s => ⟨m, s⟩

/-- Clojure's `+`. -/
def Num.plus : Num → Num → Option Num
  | .long a, .long b => if isLong (a + b) then some (.long (a + b)) else none
  | .long a, .big b => some (.big (a + b))
  | .big a, .long b => some (.big (a + b))
  | .big a, .big b => some (.big (a + b))
  | x, y => some (.dec (x.toDec.add y.toDec).m (x.toDec.add y.toDec).s)

/-- A position: `Position`, clj/src/limabean/core/inventory.clj:133-134. -/
structure NPosition where
  units : Num
  cur : Str
  cost : Option Booked.Cost := none
deriving DecidableEq

/-- The position which it denotes. -/
def NPosition.plain (p : NPosition) : Position := { units := p.units.toDec, cur := p.cur, cost := p.cost }

/-- `single-currency-accumulator`: clj/src/limabean/core/inventory.clj:80-112. -/
inductive NSca
  | merge (positions : AMap (Option CostKey) NPosition)
  | append (simple : Option NPosition) (atCost : List NPosition)

/-- `Sca.init`: clj/src/limabean/core/inventory.clj:98, 112. -/
def NSca.init : Rule → NSca
  | .merge => .merge []
  | .append => .append none []

/-- The sum in `accumulate-f`: clj/src/limabean/core/inventory.clj:89-90, 105. -/
def NPosition.plus (p0 p1 : NPosition) : Option NPosition := (p0.units.plus p1.units).map fun u => { p0 with units := u }

/-- `sca-accumulate`: clj/src/limabean/core/inventory.clj:84-91, 99-106, 114-117. -/
def NSca.accumulate : NSca → NPosition → Option NSca
  | .merge positions, p1 =>
    match positions.get (positionKey p1.plain) with
    | some p0 => (p0.plus p1).map fun p => .merge (positions.set (positionKey p1.plain) p)
    | none => some (.merge (positions.set (positionKey p1.plain) p1))
  | .append simple atCost, p1 =>
    if p1.cost.isSome then some (.append simple (atCost ++ [p1]))
    else match simple with
      | some p0 => (p0.plus p1).map fun p => .append (some p) atCost
      | none => some (.append (some p1) atCost)

/-- The accumulator which it denotes. -/
def NSca.plain : NSca → Sca
  | .merge positions => .merge (positions.map fun x => (x.1, x.2.plain))
  | .append simple atCost => .append (simple.map NPosition.plain) (atCost.map NPosition.plain)

/-- An inventory accumulator: clj/src/limabean/core/inventory.clj:123-125. -/
structure NInv where
  rule : Rule
  scas : AMap Str NSca := []

/-- The accumulator which it denotes. -/
def NInv.plain (inv : NInv) : Inv := { rule := inv.rule, scas := inv.scas.map fun x => (x.1, x.2.plain) }

/-- `accumulate`: clj/src/limabean/core/inventory.clj:127-138. -/
def NInv.accumulate (inv : NInv) (p : NPosition) : Option NInv :=
  (((inv.scas.get p.cur).getD (.init inv.rule)).accumulate p).map fun sca => { inv with scas := inv.scas.set p.cur sca }

/-- `select-keys p [:units :cur :cost]`: clj/src/limabean/core/inventory.clj:134, of a posting as it was read. -/
def readPosition (p : Booked.Posting) : NPosition := { units := .read p.units, cur := p.cur, cost := p.cost }

/-- The accumulator of an account, or a new one: clj/src/limabean/core/inventory.clj:191-193. -/
def lookupOrNewNum (booking : Str → Booking) (m : AMap Str NInv) (acc : Str) : Option NInv :=
  match m.get acc with
  | some inv => some inv
  | none => (bookingRule (booking acc)).map fun r => { rule := r }

/-- The first loop of `build`: clj/src/limabean/core/inventory.clj:187-196. -/
def cumulateNum (booking : Str → Booking) : List Booked.Posting → AMap Str NInv → Option (AMap Str NInv)
  | [], m => some m
  | p :: ps, m => do
    let inv ← lookupOrNewNum booking m p.acc
    let inv ← inv.accumulate (readPosition p)
    cumulateNum booking ps (m.set p.acc inv)

/-- `build`: clj/src/limabean/core/inventory.clj:182-207. The second loop only selects and sorts. -/
def buildInventoryNum (postings : List Booked.Posting) (booking : Str → Booking) : Option (AMap Str (List Position)) :=
  (cumulateNum booking postings []).map fun m => nonEmpty (m.map fun x => (x.1, x.2.plain))

/-- `inventory`: clj/src/limabean.clj:18-23. -/
def inventoryNum (b : Beans) (fs : List Filter) : Option (AMap Str (List Position)) :=
  buildInventoryNum ((reportRows b.directives fs).map Row.posting) b.registry.accBooking

/-- `with-bal`: clj/src/limabean/core/journal.clj:9-26. -/
def withBalNum : NInv → List Row → Option (List JournalEntry)
  | _, [] => some []
  | state, r :: rs => do
    let accumulated ← state.accumulate (readPosition r.withoutCost.posting)
    let rest ← withBalNum accumulated rs
    some ({ row := r.withoutCost, bal := accumulated.plain.positions } :: rest)

/-- `journal`: clj/src/limabean.clj:58-63, clj/src/limabean/core/journal.clj:28-31. -/
def journalNum (b : Beans) (fs : List Filter) : Option (List JournalEntry) := withBalNum { rule := .append } (reportRows b.directives fs)

end Clj
end Limabean
