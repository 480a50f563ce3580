/-
What the reader of a shown report can tell, for C95.
-/
import Verif.Clj.Reports
import Verif.Spec.Wire
import Verif.Clj.Cell

namespace Limabean
namespace Spec
open Clj

/-- Costs which read alike: they differ at most in the total, which is not shown. -/
def SameShownCost (c d : Booked.Cost) : Prop :=
  c.date = d.date ∧ c.cur = d.cur ∧ c.perUnit = d.perUnit ∧ c.label = d.label ∧ c.merge = d.merge

/-- Positions which read alike. -/
def SameShown (p q : Position) : Prop := p.units = q.units ∧ p.cur = q.cur ∧ Option.Rel SameShownCost p.cost q.cost

/-- Entries of journals which read alike. -/
def SameShownEntry (e f : JournalEntry) : Prop :=
  e.row.date = f.row.date ∧ e.row.posting.acc = f.row.posting.acc ∧ e.row.payee = f.row.payee ∧ e.row.narration = f.row.narration ∧
    e.row.posting.flag = f.row.posting.flag ∧ e.row.posting.units = f.row.posting.units ∧ e.row.posting.cur = f.row.posting.cur ∧
    List.Forall₂ SameShown e.bal f.bal

/-- The dates of the costs of positions are dates of the calendar. -/
def DatedPositions (ps : List Position) : Prop := ∀ p ∈ ps, ∀ c ∈ p.cost, CalendarDate c.date

mutual
/-- No anchor is before the beginning of its text. -/
def Anchored : Cell → Prop
  | .stack cs => AllAnchored cs
  | .row cs _ => AllAnchored cs
  | .anchored _ i => 0 ≤ i
  | _ => True
def AllAnchored : List Cell → Prop
  | [] => True
  | c :: cs => Anchored c ∧ AllAnchored cs
end

/-- An order in which a map can be iterated. -/
def KeyOrder (order : List Str → List Str) : Prop := ∀ l, (order l).Perm l

end Spec
end Limabean
