/-
C105: checks only check: they can be left out or loosened without changing anything else.
-/
import Mathlib.Tactic.IntervalCases
import Verif.Proofs.RelaxedLemmas
import Verif.Props.C82

namespace Limabean

open Spec

/-- **C105**: for every ledger which is accepted: if some of the directives which neither open accounts nor move anything are left out (assertions
which fill no pad, close directives, prices, notes and so on), if accounts are opened for more currencies, or if the tolerance of assertions
which fill no pad is raised, then the ledger is still accepted, and what is returned is the same but for what was left out or changed, with
the numbers of the new places; the warnings are the same. -/
theorem C105 (L : BookLib) (hL : L.Lawful) (order : AMap Str (Account L) → AMap Str (Account L)) (hf : ∀ m, (order m).Perm m) (o : BookOptions)
    (ds : List Raw.Directive) (out : List Booked.Directive) (w : List IndexedReport) (h : book L order o ds = .success out w)
    (r : Relaxation) (hr : r.Relaxes o.tolerance.multiplier ds) :
    book L order o (r.ledger ds) =
      .success ((out.filter fun b => r.keep b.idx).map r.booked) (w.map (renumberedReport (countChosen r.keep))) := by
  obtain ⟨ha, rfl, rfl⟩ := (C82_returned L hL order hf o ds out w).1 h
  unfold audit at ha
  cases hrun : Tally.run o.bookingMethod o.tolerance 0 (Tally.init L) ds with
  | none => simp [hrun] at ha
  | some q =>
    obtain ⟨s, fs⟩ := q
    simp only [hrun, Option.map_some, Option.some.injEq, Prod.mk.injEq] at ha
    obtain ⟨rfl, hu⟩ := ha
    obtain ⟨t, g1, g2, g3, g4, g5, g6⟩ := Freer.run (r := r) ds (pre := []) (Freer.init r.keep) Waits.init hrun
      (fun x d y he => by rw [List.nil_append]; exact hr x d y he)
    simp only [List.length_nil, countChosen] at g1 g3 g4 g5 g6
    refine (C82_returned L hL order hf o _ _ _).2 ⟨?_, ?_, ?_⟩
    · unfold audit Relaxation.ledger
      rw [g1]
      simp only [Option.map_some, Option.some.injEq, Prod.mk.injEq, true_and]
      unfold Tally.unbalanced at hu ⊢
      rw [List.filterMap_eq_nil_iff] at hu ⊢
      intro a hm
      rw [g2.names] at hm
      have := hu a hm
      rw [g2.pending]
      cases hp : s.pending a with
      | none => rfl
      | some x => rw [hp] at this; cases this
    · unfold returned returnedOf Relaxation.ledger
      unfold emitted at g3
      unfold filled at g4
      rw [g3, g4, List.map_map, List.filter_map, List.map_map]
      have : (fun b => r.keep b.idx) ∘ fillIn (filled o.tolerance (Tally.history o.bookingMethod o.tolerance 0 (Tally.init L) ds)) =
          fun b => r.keep b.idx := by
        funext b
        simp only [Function.comp_apply, fillIn_idx]
      unfold filled at this
      rw [this]
      refine List.map_congr_left fun b hb => ?_
      exact (fillIn_relaxed g5 (List.mem_filter.1 hb).2).symm
    · exact g6.symm

/-- Which directives are in the changed ledger. -/
theorem ledger_length (r : Relaxation) (ds : List Raw.Directive) : (r.ledger ds).length = countChosen r.keep ds.length := by
  have key : ∀ (ds : List Raw.Directive) (n : Nat), (r.fromNumber n ds).length + countChosen r.keep n = countChosen r.keep (n + ds.length) := by
    intro ds
    induction ds with
    | nil => intro n; simp [Relaxation.fromNumber]
    | cons d ds ih =>
      intro n
      have := ih (n + 1)
      rw [List.length_cons, show n + (ds.length + 1) = n + 1 + ds.length by omega, ← this]
      cases hk : r.keep n
      · simp [Relaxation.fromNumber, hk, countChosen]
      · simp only [Relaxation.fromNumber, hk, if_true, List.cons_append, List.nil_append, List.length_cons, countChosen, Bool.toNat_true]
        omega
  have := key ds 0
  simpa [countChosen, Relaxation.ledger] using this

/-- A directive which is kept is found, changed, at its new place. -/
theorem ledger_at (r : Relaxation) (ds : List Raw.Directive) (n : Nat) (hk : r.keep n = true) :
    (r.ledger ds)[countChosen r.keep n]? = (ds[n]?).map (r.directive n) := by
  have key : ∀ (ds : List Raw.Directive) (k n : Nat), k ≤ n → r.keep n = true →
      (r.fromNumber k ds)[countChosen r.keep n - countChosen r.keep k]? = (ds[n - k]?).map (r.directive n) := by
    intro ds
    induction ds with
    | nil => intro k n _ _; simp [Relaxation.fromNumber]
    | cons d ds ih =>
      intro k n hkn hn
      rcases Nat.eq_or_lt_of_le hkn with rfl | hlt
      · simp [Relaxation.fromNumber, hn]
      · have := ih (k + 1) n hlt hn
        have hm := countChosen_mono r.keep (show k + 1 ≤ n from hlt)
        rw [show n - k = n - (k + 1) + 1 by omega, List.getElem?_cons_succ, ← this]
        cases hk : r.keep k
        · simp [Relaxation.fromNumber, hk, countChosen]
        · simp only [countChosen, hk, Bool.toNat_true] at hm ⊢
          simp only [Relaxation.fromNumber, hk, if_true, List.cons_append, List.nil_append]
          rw [show countChosen r.keep n - countChosen r.keep k = countChosen r.keep n - (countChosen r.keep k + 1) + 1 by omega,
            List.getElem?_cons_succ]
  have := key ds 0 n (Nat.zero_le _) hk
  simpa [countChosen, Relaxation.ledger] using this

namespace Ex

open Toy

/-- A ledger with checks: a currency, a pad with its assertion, another assertion, and a close directive. -/
def checked : List Raw.Directive :=
  [mkOpen 1 equity, mkOpen 1 bank (some [nzd]), mkOpen 1 food, mkPad 2 bank equity, mkBal 3 bank ⟨100, 0⟩ nzd,
    mkTxn 4 [(food, ⟨20, 0⟩, nzd), (bank, ⟨-20, 0⟩, nzd)], mkBal 5 bank ⟨80, 0⟩ nzd, mkClose 6 food, mkBal 7 bank ⟨80, 0⟩ nzd]

/-- The second assertion and the close directive are left out, the bank takes any currency, and the last assertion is vague. -/
def fewer : Relaxation where
  keep n := n != 6 && n != 7
  currencies n c := if n == 1 then none else c
  tolerance n t := if n == 8 then some ⟨5, 0⟩ else t

/-- The numbers and the dates of what is returned, and the postings. -/
def bookedAt : Outcome → List (Nat × Date × List (Str × Dec))
  | .success out _ => out.map fun b => (b.idx, b.date, (postings [b]).map fun p => (p.acc, p.units))
  | _ => []

/-- Both are accepted, with the same postings. -/
example : bookedAt (run checked) =
      [(0, day 1, []), (1, day 1, []), (2, day 1, []), (3, day 2, []), (3, day 2, [(bank, ⟨100, 0⟩), (equity, ⟨-100, 0⟩)]), (4, day 3, []),
        (5, day 4, [(food, ⟨20, 0⟩), (bank, ⟨-20, 0⟩)]), (6, day 5, []), (7, day 6, []), (8, day 7, [])] ∧
    bookedAt (run (fewer.ledger checked)) =
      [(0, day 1, []), (1, day 1, []), (2, day 1, []), (3, day 2, []), (3, day 2, [(bank, ⟨100, 0⟩), (equity, ⟨-100, 0⟩)]), (4, day 3, []),
        (5, day 4, [(food, ⟨20, 0⟩), (bank, ⟨-20, 0⟩)]), (6, day 7, [])] := by
  refine ⟨?_, ?_⟩ <;> decide +kernel

/-- The conditions of the theorem hold. -/
example : fewer.Relaxes none checked := by
  intro pre d post h
  have hlen : pre.length < 9 := by
    have := congrArg List.length h
    simp [checked] at this
    omega
  have hp : pre = checked.take pre.length := by rw [h]; simp
  have hd : checked[pre.length]? = some d := by rw [h]; simp
  generalize pre.length = n at hlen hp hd
  subst hp
  interval_cases n <;> (cases hd; refine ⟨?_, ?_, ?_⟩) <;>
    simp [checked, fewer, isCheck, padWaits, mkOpen, mkBal, mkPad, mkClose, mkTxn, permits, Spec.tolerance, Dec.val]

/-- What is wrong, with the number of the directive. -/
def wrongAt : Outcome → List (Nat × Reason)
  | .failure es => es.map fun e => (e.idx.directive, e.reason)
  | _ => []

/-- An assertion which fills a pad is more than a check: if it is left out then the pad is filled by the next one, and it is refused with
a tolerance so wide that the pad is not needed. -/
example : bookedAt (run (({ keep := (· != 4) } : Relaxation).ledger checked)) =
      [(0, day 1, []), (1, day 1, []), (2, day 1, []), (3, day 2, []), (3, day 2, [(bank, ⟨100, 0⟩), (equity, ⟨-100, 0⟩)]),
        (4, day 4, [(food, ⟨20, 0⟩), (bank, ⟨-20, 0⟩)]), (5, day 5, []), (6, day 6, []), (7, day 7, [])] ∧
    wrongAt (run (({ keep := fun _ => true, tolerance := fun n t => if n == 4 then some ⟨100, 0⟩ else t } : Relaxation).ledger checked)) =
      [(3, .unusedNoAdjustment), (6, .accumulated ⟨80, 0⟩ ⟨100, 0⟩ nzd)] := by
  refine ⟨?_, ?_⟩ <;> decide +kernel

end Ex

end Limabean
