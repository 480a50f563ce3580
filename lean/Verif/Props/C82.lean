/-
C82: what booking returns, in full.
-/
import Verif.Proofs.OutputLemmas
import Verif.Props.C75
import Verif.Props.Examples

namespace Limabean

open Spec

/-- Booking succeeds exactly for the ledgers in which the audit finds nothing, and then it returns exactly the
directives and the warnings of the reference semantics: every directive in its place with its number, date, tags, links
and metadata; transactions with the postings which the library makes of them at what the accounts hold by then; after
each pad a transaction with what the assertion which uses it was missing; and for each account opened with an
unsupported booking method the two warnings. -/
theorem C82_returned (L : BookLib) (hL : L.Lawful) (order : AMap Str (Account L) → AMap Str (Account L))
    (hf : ∀ m, (order m).Perm m) (o : BookOptions) (ds : List Raw.Directive) (out : List Booked.Directive)
    (w : List IndexedReport) :
    book L order o ds = .success out w ↔
      audit L o.bookingMethod o.tolerance ds = some ([], []) ∧
      out = returned L o.bookingMethod o.tolerance ds ∧ w = warned L ds := by
  have main : audit L o.bookingMethod o.tolerance ds = some ([], []) →
      book L order o ds = .success (returned L o.bookingMethod o.tolerance ds) (warned L ds) := by
    intro h
    have hb := C75_reports L hL order hf o ds
    rw [h] at hb
    obtain ⟨out, w, hb⟩ := hb
    rw [hb]
    unfold audit at h
    cases hs : Tally.run o.bookingMethod o.tolerance 0 (Tally.init L) ds with
    | none => simp [hs] at h
    | some q =>
      obtain ⟨s, fs⟩ := q
      simp only [hs, Option.map_some, Option.some.injEq, Prod.mk.injEq] at h
      obtain ⟨rfl, -⟩ := h
      unfold book collect at hb
      cases hr : Run.loop (envOf L o order) 0 ds {} with
      | none => simp [hr] at hb
      | some r =>
        simp only [hr, Run.validate] at hb
        split at hb
        · cases hb
          obtain ⟨k1, k2⟩ := outputs_loop (r := {}) (B := []) (F := []) hL (show (envOf L o order).Fair from hf) ds
            StInv.init (Tal.init o.bookingMethod) ⟨by simp [Tally.init], by simp [Tally.init], by simp, by simp⟩
            (by intro i j d d' h; simp at h) rfl hr hs
          rw [k1, k2]
          simp only [List.nil_append]
          rfl
        · cases hb
  constructor
  · intro h
    have ha : audit L o.bookingMethod o.tolerance ds = some ([], []) := by
      have hb := C75_reports L hL order hf o ds
      split at hb
      · rw [h] at hb; cases hb
      · assumption
      · obtain ⟨_, _, _, hb, -⟩ := hb
        rw [h] at hb; cases hb
    have := main ha
    rw [h] at this
    cases this
    exact ⟨ha, rfl, rfl⟩
  · rintro ⟨h, rfl, rfl⟩
    exact main h

namespace Ex

open Toy

/-- The reference output of the example ledger, which has a filled pad, a posting matched against two lots and an
interpolated one. -/
example : audit lib none {} ledger = some ([], []) ∧ returned lib none {} ledger = out ∧ warned lib ledger = [] := by
  decide +kernel

/-- The transaction which fills the pad is written where the pad is, for an assertion further down. -/
example : (returned lib none {} [mkOpen 1 equity, mkOpen 1 bank, mkPad 2 bank equity, mkOpen 3 food,
      mkBal 4 bank ⟨10, 0⟩ nzd]).map (fun d => (d.idx, match d.variant with
        | .transaction t => t.postings.map fun p => (p.acc, p.units)
        | _ => [])) =
    [(0, []), (1, []), (2, []), (2, [(bank, ⟨10, 0⟩), (equity, ⟨-10, 0⟩)]), (3, []), (4, [])] := by decide +kernel

/-- An unsupported booking method. -/
example : (warned lib [mkOpen 1 equity, mkOpen 1 bank none (some .average)]).map (fun w => w.idx.directive) = [1, 1] := by
  decide +kernel

end Ex

end Limabean
