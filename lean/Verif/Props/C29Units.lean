/-
C29: the units of positions, whatever they cost.
-/
import Verif.Props.C30
import Verif.Proofs.RollupLemmas

namespace Limabean

open Clj Spec

/-- C29 for the units of positions: each currency in which something is held occurs once, in alphabetical order, with the sum of all
units of it, and without a cost. -/
theorem C29_units (ps : List Position) :
    ((positionsUnits ps).map (·.cur)).Pairwise (· < ·) ∧
    (∀ c, c ∈ (positionsUnits ps).map (·.cur) ↔ ∃ p ∈ ps, p.cur = c) ∧
    ∀ q ∈ positionsUnits ps, q.cost = none ∧ q.units.val = totalUnits Position.units ps (fun p => p.cur = q.cur) := by
  have hc : (positionsUnits ps).map (·.cur) = positionsCurrencies ps := by
    unfold positionsUnits
    rw [List.map_map]
    exact List.map_id _
  have h := accFold (g := Dec.add) Dec.val_add (ps.map fun p => (p.cur, p.units)) [] AMap.WF_nil
  rw [List.foldl_map] at h
  refine ⟨?_, fun c => ?_, ?_⟩
  · rw [hc]
    exact (sortBy_strict cmpStr_total h.1).imp cmpStr_lt.1
  · rw [hc]
    unfold positionsCurrencies
    rw [mem_sortBy]
    unfold unitsByCurrency
    rw [h.2.1]
    simp [AMap.keys]
  · intro q hq
    obtain ⟨c, -, rfl⟩ := List.mem_map.1 hq
    exact ⟨rfl, positionsUnitsOf_val ps c⟩

/-- Non-vacuity: two lots of one currency at different costs, and another currency. -/
example : positionsUnits [{ units := ⟨5, 0⟩, cur := str% "VTI", cost := some { date := Toy.day 1, perUnit := ⟨10, 0⟩, total := ⟨50, 0⟩, cur := str% "NZD" } },
    { units := ⟨2, 0⟩, cur := str% "VTI", cost := some { date := Toy.day 2, perUnit := ⟨11, 0⟩, total := ⟨22, 0⟩, cur := str% "NZD" } },
    { units := ⟨1250, 2⟩, cur := str% "NZD" }] =
    [{ units := ⟨1250, 2⟩, cur := str% "NZD" }, { units := ⟨7, 0⟩, cur := str% "VTI" }] := by
  decide +kernel

end Limabean
