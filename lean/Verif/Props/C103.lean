/-
C103: assertions which fail can be mended one by one.
-/
import Verif.Proofs.MendedLemmas
import Verif.Props.C83

namespace Limabean

open Spec

variable {L : BookLib}

theorem gap_iff {x : IndexedReport} {f : Finding} (h : Announces x f) : gapReport x = f.fault.isGap := by
  have := h.said
  unfold gapReport
  generalize x.reason = r at this ⊢
  generalize x.related = rel at this
  generalize f.fault = g at this ⊢
  cases this <;> rfl

theorem others_announced {chosen : Nat → Bool} {es : List IndexedReport} {fs : List Finding} (h : List.Forall₂ Announces es fs) :
    List.Forall₂ Announces (others chosen es) (otherFindings chosen fs) := by
  induction h with
  | nil => exact .nil
  | @cons x f es fs h1 h2 ih =>
    unfold others otherFindings at ih ⊢
    rw [List.filter_cons, List.filter_cons, gap_iff h1, show x.idx.directive = f.directive by rw [h1.place]]
    split
    · exact .cons h1 ih
    · exact ih

theorem others_tell {chosen : Nat → Bool} {es : List IndexedReport} {fs : List Finding} (h : Tell es fs) :
    Tell (others chosen es) (otherFindings chosen fs) := by
  obtain ⟨es', h1, h2⟩ := h
  exact ⟨others chosen es', h1.filter _, others_announced h2⟩

theorem tell_nil_iff {es : List IndexedReport} {fs : List Finding} (h : Tell es fs) : es = [] ↔ fs = [] := by
  obtain ⟨es', h1, h2⟩ := h
  constructor
  · rintro rfl
    rw [h1.nil_eq.symm] at h2
    exact List.forall₂_nil_left_iff.1 h2
  · rintro rfl
    rw [List.forall₂_nil_right_iff.1 h2] at h1
    exact h1.eq_nil

theorem mended_told (hL : L.Lawful) (hlook : LooksAtItsAccounts L) {order : AMap Str (Account L) → AMap Str (Account L)}
    (hf : ∀ m, (order m).Perm m) {o : BookOptions} {ds : List Raw.Directive} {es : List IndexedReport}
    (h : book L order o ds = .failure es) {e : Str} (hu : Unused e ds) {chosen : Nat → Bool}
    (hc : ∀ n, chosen n = true → ∃ r ∈ es, r.idx.directive = n ∧ gapReport r = true) (date : Date) :
    ∃ fs gs ps, Tell (others chosen es) fs ∧
      audit L o.bookingMethod o.tolerance (mended e date chosen ds) = some (gs, ps) ∧
      (gs ++ ps).Perm (fs.map (Finding.renumber (movedTo chosen))) := by
  have h75 := C75_reports L hL order hf o ds
  cases ha : audit L o.bookingMethod o.tolerance ds with
  | none => rw [ha, h] at h75; cases h75
  | some q =>
    obtain ⟨fs, ps⟩ := q
    by_cases hne : fs = [] ∧ ps = []
    · obtain ⟨rfl, rfl⟩ := hne
      rw [ha, h] at h75
      obtain ⟨out, w, h75⟩ := h75
      cases h75
    · obtain ⟨es1, h1, ht⟩ := told_of_failure hL hf ha hne
      rw [h] at h1
      cases h1
      have hps : ∀ p ∈ ps, p.fault.isGap = false := by
        unfold audit at ha
        cases hr : Tally.run o.bookingMethod o.tolerance 0 (Tally.init L) ds with
        | none => rw [hr] at ha; cases ha
        | some q =>
          rw [hr] at ha
          cases ha
          intro p hp
          unfold Tally.unbalanced at hp
          obtain ⟨a, -, hp⟩ := List.mem_filterMap.1 hp
          obtain ⟨q, -, rfl⟩ := Option.map_eq_some_iff.1 hp
          rfl
      have hc' : ∀ k, chosen k = true → ∃ g ∈ fs, g.directive = k ∧ g.fault.isGap = true := by
        intro k hk
        obtain ⟨r, hr, hrk, hrg⟩ := hc k hk
        obtain ⟨es', p1, p2⟩ := ht
        have hr' := p1.mem_iff.1 hr
        obtain ⟨i, hi, hri⟩ := List.getElem_of_mem hr'
        have hi' : i < (fs ++ ps).length := by rw [← p2.length_eq]; exact hi
        have hann := p2.get hi hi'
        simp only [List.get_eq_getElem, hri] at hann
        have hm : (fs ++ ps)[i] ∈ fs ++ ps := List.getElem_mem hi'
        have hgap : (fs ++ ps)[i].fault.isGap = true := by rw [← gap_iff hann, hrg]
        rcases List.mem_append.1 hm with hm | hm
        · exact ⟨_, hm, by rw [← hrk, hann.place], hgap⟩
        · rw [hps _ hm] at hgap; cases hgap
      obtain ⟨ps', k1, k2⟩ := mended_audit hL hlook hu ha hc' date
      refine ⟨_, _, ps', others_tell ht, k1, ?_⟩
      unfold otherFindings
      have hself : ps.filter (fun g => !(chosen g.directive && g.fault.isGap)) = ps :=
        List.filter_eq_self.2 (by intro p hp; rw [hps p hp]; simp)
      rw [List.filter_append, List.map_append, hself]
      exact k2.append_left _

section

variable (L) (hL : L.Lawful) (hlook : LooksAtItsAccounts L) (order : AMap Str (Account L) → AMap Str (Account L))
  (hf : ∀ m, (order m).Perm m) (o : BookOptions) (ds : List Raw.Directive) (es : List IndexedReport)
  (h : book L order o ds = .failure es) (e : Str) (hu : Unused e ds) (date : Date) (chosen : Nat → Bool)
  (hc : ∀ n, chosen n = true → ∃ r ∈ es, r.idx.directive = n ∧ gapReport r = true)

include hL hlook hf h hu hc

/-- C103: a ledger is refused. Some of the assertions which are reported as failed are chosen, and before each of them a pad is written, from
an account which is opened for this and not used otherwise. If there are other reports then the ledger is still refused, and reports tell
what these tell, of the same directives: nothing is added, and nothing else goes away. -/
theorem C103_reports (hne : others chosen es ≠ []) :
    ∃ es' fs, book L order o (mended e date chosen ds) = .failure es' ∧ Tell (others chosen es) fs ∧
      Tell es' (fs.map (Finding.renumber (movedTo chosen))) := by
  obtain ⟨fs, gs, ps, h1, h2, h3⟩ := mended_told hL hlook hf h hu hc date
  have hgs : ¬ (gs = [] ∧ ps = []) := by
    rintro ⟨rfl, rfl⟩
    have : fs = [] := by simpa using h3.nil_eq.symm
    exact hne ((tell_nil_iff h1).2 this)
  obtain ⟨es', k1, k2⟩ := told_of_failure hL hf h2 hgs
  exact ⟨es', fs, k1, h1, Tell.perm k2 h3⟩

/-- C103: if all reports are on failed assertions, and all of these are chosen, then the ledger with the pads is accepted. -/
theorem C103_accepted (hall : others chosen es = []) : ∃ out w, book L order o (mended e date chosen ds) = .success out w := by
  obtain ⟨fs, gs, ps, h1, h2, h3⟩ := mended_told hL hlook hf h hu hc date
  have : fs = [] := (tell_nil_iff h1).1 hall
  subst this
  have hnil := h3.eq_nil
  rw [List.append_eq_nil_iff] at hnil
  obtain ⟨rfl, rfl⟩ := hnil
  exact ⟨_, _, (C82_returned L hL order hf o _ _ _).2 ⟨h2, rfl, rfl⟩⟩

end

/-- The directives of the ledger are found where `movedTo` says. -/
theorem mended_at (e : Str) (date : Date) (chosen : Nat → Bool) (ds : List Raw.Directive)
    (hc : ∀ n, chosen n = true → ∃ d b, ds[n]? = some d ∧ d.variant = .balance b) (n : Nat) (hn : n < ds.length) :
    (mended e date chosen ds)[movedTo chosen n]? = ds[n]? := by
  have key : ∀ (ds : List Raw.Directive) (k : Nat), (∀ n, chosen (k + n) = true → n < ds.length → ∃ d b, ds[n]? = some d ∧ d.variant = .balance b) →
      ∀ n, n < ds.length →
        (mendedFrom e chosen k ds)[n + (countChosen chosen (k + n + 1) - countChosen chosen k)]? = ds[n]? := by
    intro ds
    induction ds with
    | nil => intro k _ n hn; simp at hn
    | cons d ds ih =>
      intro k hk n hn
      have hmono : ∀ a b, countChosen chosen a ≤ countChosen chosen (a + b) := by
        intro a b
        induction b with
        | zero => exact Nat.le_refl _
        | succ b ih => exact Nat.le_trans ih (by rw [← Nat.add_assoc]; exact Nat.le_add_right _ _)
      have hlen : ((if chosen k then padBefore e d else []) : List Raw.Directive).length = (chosen k).toNat := by
        cases hck : chosen k with
        | false => rfl
        | true =>
          obtain ⟨d', b, h1, h2⟩ := hk 0 (by simpa using hck) (by simp)
          simp only [List.getElem?_cons_zero, Option.some.injEq] at h1
          subst h1
          simp [padBefore, h2]
      have hk1 : countChosen chosen (k + 1) = countChosen chosen k + (chosen k).toNat := rfl
      simp only [mendedFrom]
      cases n with
      | zero =>
        rw [show k + 0 + 1 = k + 1 from rfl]
        rw [List.getElem?_append_right (by omega), hlen]
        rw [show 0 + (countChosen chosen (k + 1) - countChosen chosen k) - (chosen k).toNat = 0 by omega]
        rfl
      | succ n =>
        have h1 := hmono (k + 1) (n + 1)
        rw [show k + 1 + (n + 1) = k + (n + 1) + 1 by omega] at h1
        rw [List.getElem?_append_right (by omega), hlen]
        rw [show n + 1 + (countChosen chosen (k + (n + 1) + 1) - countChosen chosen k) - (chosen k).toNat =
          n + (countChosen chosen (k + 1 + n + 1) - countChosen chosen (k + 1)) + 1 by
            rw [show k + (n + 1) + 1 = k + 1 + n + 1 by omega] at h1 ⊢; omega]
        rw [List.getElem?_cons_succ, List.getElem?_cons_succ]
        refine ih (k + 1) ?_ n (by simpa using hn)
        intro m hm hml
        obtain ⟨d', b, g1, g2⟩ := hk (m + 1) (by rw [show k + (m + 1) = k + 1 + m by omega]; exact hm) (by simpa using hml)
        exact ⟨d', b, by simpa using g1, g2⟩
  have := key ds 0 (fun n h _ => hc n (by simpa using h)) n hn
  simp only [Nat.zero_add, countChosen, Nat.sub_zero] at this
  unfold mended movedTo
  rw [show n + 1 + countChosen chosen (n + 1) = n + countChosen chosen (n + 1) + 1 by omega, List.getElem?_cons_succ]
  exact this

namespace Ex

open Toy

/-- Two assertions which fail, and a posting to an account which was closed. -/
def threeFaults : List Raw.Directive :=
  [mkOpen 1 bank, mkOpen 1 food, mkBal 2 bank ⟨100, 0⟩ nzd, mkTxn 3 [(food, ⟨20, 0⟩, nzd), (bank, ⟨-20, 0⟩, nzd)], mkClose 4 food,
    mkBal 5 bank ⟨85, 0⟩ nzd, mkTxn 6 [(food, ⟨1, 0⟩, nzd), (bank, ⟨-1, 0⟩, nzd)], mkBal 7 bank ⟨85, 0⟩ nzd]

/-- The places and reasons of the reports. -/
def placed (x : Outcome) : List (Nat × Reason) := x.reports.map fun r => (r.idx.directive, r.reason)

theorem threeFaults_unused : Unused equity threeFaults := by
  constructor
  · decide +kernel
  · intro d hd b hv
    have key : ∀ d ∈ threeFaults, (match d.variant with
        | .balance b => decide (¬ Below b.acc equity)
        | _ => true) = true := by
      decide +kernel
    have := key d hd
    rw [hv] at this
    simpa using this

/-- The last assertion holds, as the transaction before it was refused. -/
example : placed (run threeFaults) = [(2, .accumulated ⟨0, 0⟩ ⟨100, 0⟩ nzd), (5, .accumulated ⟨80, 0⟩ ⟨5, 0⟩ nzd), (6, .accountClosed)] := by
  decide +kernel

/-- With a pad before the second one the other two reports remain, at directives which have moved. -/
example : placed (run (mended equity (day 1) (· == 5) threeFaults)) = [(3, .accumulated ⟨0, 0⟩ ⟨100, 0⟩ nzd), (8, .accountClosed)] ∧
    movedTo (· == 5) 2 = 3 ∧ movedTo (· == 5) 6 = 8 := by
  decide +kernel

/-- Without the refused transaction, pads before both assertions make a ledger which is accepted. -/
example : placed (run (mended equity (day 1) (fun n => n == 2 || n == 5) (threeFaults.eraseIdx 6))) = [] := by decide +kernel

end Ex

end Limabean
