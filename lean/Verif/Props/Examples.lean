/-
A ledger for the examples beside the theorems: it opens accounts, pads, asserts, posts with an interpolated amount and
with a cost matched against two lots, and closes.
-/
import Verif.Pod.ToyLib

namespace Limabean
namespace Ex

open Toy

def bank : Str := str% "Assets:Bank"
def current : Str := str% "Assets:Bank:Current"
def bank2 : Str := str% "Assets:Bank2"
def equity : Str := str% "Equity:Opening"
def food : Str := str% "Expenses:Food"
def nzd : Str := str% "NZD"
def usd : Str := str% "USD"

/-- A transaction with one interpolated posting. -/
def lunch : Raw.Directive :=
  { date := day 5, tags := some [str% "lunch"]
    variant := .transaction { flag := str% "*", payee := some (str% "Cafe"), postings :=
      [{ acc := current, units := some ⟨-1250, 2⟩, cur := some nzd, metadata := some [(str% "k", .bool true)] },
       { acc := food }] } }

/-- A transaction with a posting which is matched against two lots. -/
def sale : Raw.Directive :=
  { date := day 6
    variant := .transaction { flag := str% "*", postings :=
      [{ acc := bank, units := some ⟨3, 0⟩, cur := some usd, costSpec := some {},
         priceSpec := some { perUnit := some ⟨2, 0⟩, cur := some nzd } },
       { acc := equity, units := some ⟨-3, 0⟩, cur := some usd }] } }

/-- An accepted ledger. -/
def ledger : List Raw.Directive :=
  [ mkOpen 1 equity, mkOpen 1 bank, mkOpen 1 current (some [nzd]), mkOpen 1 food, mkOpen 1 bank2 none (some .fifo),
    mkPad 2 bank equity, mkBal 3 bank ⟨10000, 2⟩ nzd, lunch, sale, mkBal 7 bank ⟨8750, 2⟩ nzd, mkClose 8 bank2 ]

/-- Its booked form. -/
def out : List Booked.Directive :=
  match run ledger with
  | .success ds _ => ds
  | _ => []

theorem ledger_ok : run ledger = .success out [] := by decide +kernel

example : out.length = 12 := by decide +kernel

/-- Any iteration order will do. -/
theorem fair_id : ∀ m : AMap Str (Account lib), (id m).Perm m := fun m => List.Perm.refl m

end Ex
end Limabean
