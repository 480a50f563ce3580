/-
C83: the order of neighbouring directives which have nothing to do with each other does not matter.
-/
import Verif.Proofs.SwapOutput
import Verif.Props.C81
import Verif.Props.C82

namespace Limabean

open Spec

variable {L : BookLib}

theorem unbalanced_sim {f : Nat → Nat} {s s' : Tally L} (h : Sim f s s') :
    s'.unbalanced.Perm (s.unbalanced.map (Finding.renumber f)) := by
  unfold Tally.unbalanced
  rw [List.map_filterMap]
  refine (h.names.filterMap _).trans (List.Perm.of_eq ?_)
  congr 1
  funext a
  rw [(h.at_ a).pending]
  cases s.pending a <;> rfl

theorem swap_audit (hL : L.Lawful) (hlook : LooksAtItsAccounts L) (option : Option Booking) (tol : Tolerance)
    (pre : List Raw.Directive) (x y : Raw.Directive) (post : List Raw.Directive) (hu : Unrelated pre x y) :
    (audit L option tol (pre ++ x :: y :: post) = none ∧ audit L option tol (pre ++ y :: x :: post) = none) ∨
    ∃ fs ps fs' ps', audit L option tol (pre ++ x :: y :: post) = some (fs, ps) ∧
      audit L option tol (pre ++ y :: x :: post) = some (fs', ps') ∧
      fs'.Perm (fs.map (Finding.renumber (exchange pre.length))) ∧
      ps'.Perm (ps.map (Finding.renumber (exchange pre.length))) := by
  have h := swap_run hL hlook option tol pre x y post hu
  unfold audit
  generalize Tally.run option tol 0 (Tally.init L) (pre ++ x :: y :: post) = u at h
  generalize Tally.run option tol 0 (Tally.init L) (pre ++ y :: x :: post) = v at h
  cases h with
  | crash => exact Or.inl ⟨rfl, rfl⟩
  | fine h1 h2 => exact Or.inr ⟨_, _, _, _, rfl, rfl, h2, unbalanced_sim h1⟩

theorem Tell.perm {es : List IndexedReport} {fs gs : List Finding} (h : Tell es fs) (hp : fs.Perm gs) : Tell es gs := by
  obtain ⟨es', h1, h2⟩ := h
  have : Relation.Comp (List.Forall₂ Announces) List.Perm es' gs := ⟨fs, h2, hp⟩
  rw [List.forall₂_comp_perm_eq_perm_comp_forall₂] at this
  obtain ⟨es'', h3, h4⟩ := this
  exact ⟨es'', h1.trans h3, h4⟩

/-- A ledger which is refused, and what the audit says. -/
theorem told_of_failure (hL : L.Lawful) {order : AMap Str (Account L) → AMap Str (Account L)}
    (hf : ∀ m, (order m).Perm m) {o : BookOptions} {ds : List Raw.Directive} {fs ps : List Finding}
    (h : audit L o.bookingMethod o.tolerance ds = some (fs, ps)) (hne : ¬ (fs = [] ∧ ps = [])) :
    ∃ es, book L order o ds = .failure es ∧ Tell es (fs ++ ps) := by
  have hb := C75_reports L hL order hf o ds
  rw [h] at hb
  have key : (∃ xs ys ys', book L order o ds = .failure (xs ++ ys') ∧ ys'.Perm ys ∧
        List.Forall₂ Announces xs fs ∧ List.Forall₂ Announces ys ps) → 
      ∃ es, book L order o ds = .failure es ∧ Tell es (fs ++ ps) := by
    rintro ⟨xs, ys, ys', h1, h2, h3, h4⟩
    exact ⟨_, h1, xs ++ ys, h2.append_left _, List.rel_append h3 h4⟩
  rcases fs with _ | ⟨f, fs⟩
  · rcases ps with _ | ⟨p, ps⟩
    · exact absurd ⟨rfl, rfl⟩ hne
    · exact key hb
  · exact key hb

section

variable (L) (hL : L.Lawful) (hlook : LooksAtItsAccounts L) (order : AMap Str (Account L) → AMap Str (Account L))
  (hf : ∀ m, (order m).Perm m) (o : BookOptions) (pre : List Raw.Directive) (x y : Raw.Directive)
  (post : List Raw.Directive) (hu : Unrelated pre x y)

include hL hlook hf hu

/-- Exchanging neighbouring directives which have nothing to do with each other does not make booking crash, nor stop it
from crashing. -/
theorem C83_panics : book L order o (pre ++ x :: y :: post) = .panic ↔ book L order o (pre ++ y :: x :: post) = .panic := by
  have h1 := C75_reports L hL order hf o (pre ++ x :: y :: post)
  have h2 := C75_reports L hL order hf o (pre ++ y :: x :: post)
  have nopanic : ∀ {ds fs ps}, audit L o.bookingMethod o.tolerance ds = some (fs, ps) → book L order o ds ≠ .panic := by
    intro ds fs ps ha hp
    by_cases hne : fs = [] ∧ ps = []
    · rw [hne.1, hne.2] at ha
      have := (C82_returned L hL order hf o ds _ _).2 ⟨ha, rfl, rfl⟩
      rw [hp] at this
      cases this
    · obtain ⟨es, he, -⟩ := told_of_failure hL hf ha hne
      rw [hp] at he
      cases he
  rcases swap_audit hL hlook o.bookingMethod o.tolerance pre x y post hu with ⟨a1, a2⟩ | ⟨fs, ps, fs', ps', a1, a2, -⟩
  · rw [a1] at h1
    rw [a2] at h2
    exact ⟨fun _ => h2, fun _ => h1⟩
  · exact ⟨fun h => absurd h (nopanic a1), fun h => absurd h (nopanic a2)⟩

/-- A ledger which is accepted remains so when neighbouring directives which have nothing to do with each other are
exchanged, whatever follows. The same directives are returned and the same warnings given, with those two numbers
exchanged. -/
theorem C83_returned (out : List Booked.Directive) (w : List IndexedReport)
    (h : book L order o (pre ++ x :: y :: post) = .success out w) :
    ∃ out' w', book L order o (pre ++ y :: x :: post) = .success out' w' ∧
      out'.Perm (out.map (renumbered (exchange pre.length))) ∧
      w'.Perm (w.map (renumberedReport (exchange pre.length))) := by
  obtain ⟨ha, rfl, rfl⟩ := (C82_returned L hL order hf o _ _ _).1 h
  rcases swap_audit hL hlook o.bookingMethod o.tolerance pre x y post hu with
    ⟨a1, -⟩ | ⟨fs, ps, fs', ps', a1, a2, a3, a4⟩
  · rw [ha] at a1; cases a1
  · rw [ha] at a1
    cases a1
    rw [a3.eq_nil, a4.eq_nil] at a2
    refine ⟨_, _, (C82_returned L hL order hf o _ _ _).2 ⟨a2, rfl, rfl⟩, ?_, swap_warned pre x y post⟩
    refine swap_returned hL hlook _ _ pre x y post hu ?_
    intro hc
    unfold audit at ha
    rw [hc] at ha
    cases ha

/-- A ledger which is refused remains so, and the reports tell the same of the same directives. -/
theorem C83_reports (es : List IndexedReport) (h : book L order o (pre ++ x :: y :: post) = .failure es) :
    ∃ es' fs, book L order o (pre ++ y :: x :: post) = .failure es' ∧ Tell es fs ∧
      Tell es' (fs.map (Finding.renumber (exchange pre.length))) := by
  rcases swap_audit hL hlook o.bookingMethod o.tolerance pre x y post hu with
    ⟨a1, -⟩ | ⟨fs, ps, fs', ps', a1, a2, a3, a4⟩
  · have h1 := C75_reports L hL order hf o (pre ++ x :: y :: post)
    rw [a1] at h1
    rw [h] at h1
    cases h1
  · by_cases hne : fs = [] ∧ ps = []
    · rw [hne.1, hne.2] at a1
      have := (C82_returned L hL order hf o _ _ _).2 ⟨a1, rfl, rfl⟩
      rw [h] at this
      cases this
    · have hne' : ¬ (fs' = [] ∧ ps' = []) := by
        rintro ⟨rfl, rfl⟩
        exact hne ⟨by simpa using a3.nil_eq.symm, by simpa using a4.nil_eq.symm⟩
      obtain ⟨es1, h1, t1⟩ := told_of_failure hL hf a1 hne
      obtain ⟨es2, h2, t2⟩ := told_of_failure hL hf a2 hne'
      rw [h] at h1
      cases h1
      refine ⟨es2, fs ++ ps, h2, t1, Tell.perm t2 ?_⟩
      rw [List.map_append]
      exact a3.append a4

end

/-! ### Examples -/

namespace Ex

open Toy

/-- An assertion which fills a pad, next to a transaction on accounts which an assertion relates afterwards. -/
def swapPre : List Raw.Directive :=
  [mkOpen 1 equity, mkOpen 1 current, mkOpen 1 food, mkOpen 1 bank, mkOpen 1 bank2, mkPad 2 current equity]

def swapX : Raw.Directive := mkBal 3 current ⟨10, 0⟩ nzd

def swapY : Raw.Directive := mkTxn 3 [(food, ⟨5, 0⟩, nzd), (bank, ⟨-5, 0⟩, nzd)]

def swapPost : List Raw.Directive := [mkBal 4 bank ⟨5, 0⟩ nzd, mkClose 5 bank2]

theorem swap_unrelated : Unrelated swapPre swapX swapY := by
  constructor
  · intro a ha
    have : a = current ∨ a = equity := by
      revert ha
      simp [concerns, padSources, swapPre, swapX, mkBal, mkPad, mkOpen]
    rintro (h | ⟨b, h, -⟩)
    · have : a = food ∨ a = bank := by
        revert h
        simp [concerns, swapY, mkTxn]
      rcases ‹a = current ∨ a = equity› with rfl | rfl <;> revert this <;> decide +kernel
    · simp [swapY, mkTxn] at h
  · intro a ha
    have : a = food ∨ a = bank := by
      revert ha
      simp [concerns, swapY, mkTxn]
    rintro (h | ⟨b, h, hb⟩)
    · have : a = current ∨ a = equity := by
        revert h
        simp [concerns, padSources, swapPre, swapX, mkBal, mkPad, mkOpen]
      rcases ‹a = food ∨ a = bank› with rfl | rfl <;> revert this <;> decide +kernel
    · have : b.acc = current := by
        simp only [swapX, mkBal, Raw.Variant.balance.injEq] at h
        rw [← h]
      rw [this] at hb
      rcases ‹a = food ∨ a = bank› with rfl | rfl <;> revert hb <;> decide +kernel

/-- Both orders are accepted, and the outputs are in the order of the inputs. -/
example : Unrelated swapPre swapX swapY ∧
    (match run (swapPre ++ swapX :: swapY :: swapPost) with | .success out _ => out.length | _ => 0) = 11 ∧
    (match run (swapPre ++ swapY :: swapX :: swapPost) with | .success out _ => out.length | _ => 0) = 11 :=
  ⟨swap_unrelated, by decide +kernel⟩

/-- Directives which are related: the assertion comes before or after the transaction of the account below. -/
example : (run (swapPre ++ [mkTxn 3 [(food, ⟨5, 0⟩, nzd), (current, ⟨-5, 0⟩, nzd)], mkBal 3 bank ⟨0, 0⟩ nzd])).reports.length = 2 ∧
    (run (swapPre ++ [mkBal 3 bank ⟨0, 0⟩ nzd, mkTxn 3 [(food, ⟨5, 0⟩, nzd), (current, ⟨-5, 0⟩, nzd)]])).reports.length = 1 := by
  decide +kernel

end Ex

end Limabean
