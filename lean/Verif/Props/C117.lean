/-
C117: what was refused can be taken out.
-/
import Verif.Proofs.TakenOutLemmas
import Verif.Props.C14
import Verif.Props.C103

namespace Limabean

open Spec

variable {L : BookLib}

theorem idle_of_report {ds : List Raw.Directive} {x : IndexedReport} {g : Finding} (h : Announces x g) (hi : Idle ds x)
    {d : Raw.Directive} (hd : ds[g.directive]? = some d) : g.fault.idle d := by
  have h1 := h.said
  have h2 := h.place
  unfold Idle at hi
  rw [h2] at hi
  generalize x.reason = r at h1 hi
  generalize x.related = rel at h1
  generalize g.fault = f at h1 ⊢
  cases h1 <;> first | exact hi d hd | exact hi

theorem left_announced {taken : Nat → Bool} {es : List IndexedReport} {fs : List Finding} (h : List.Forall₂ Announces es fs) :
    List.Forall₂ Announces (reportsLeft taken es) (findingsLeft taken fs) := by
  induction h with
  | nil => exact .nil
  | @cons x f es fs h1 h2 ih =>
    unfold reportsLeft findingsLeft at ih ⊢
    rw [List.filter_cons, List.filter_cons, show x.idx.directive = f.directive by rw [h1.place]]
    split
    · exact .cons h1 ih
    · exact ih

theorem left_tell {taken : Nat → Bool} {es : List IndexedReport} {fs : List Finding} (h : Tell es fs) :
    Tell (reportsLeft taken es) (findingsLeft taken fs) := by
  obtain ⟨es', h1, h2⟩ := h
  exact ⟨reportsLeft taken es', h1.filter _, left_announced h2⟩

theorem without_told (hL : L.Lawful) {order : AMap Str (Account L) → AMap Str (Account L)}
    (hf : ∀ m, (order m).Perm m) {o : BookOptions} {ds : List Raw.Directive} {es : List IndexedReport}
    (h : book L order o ds = .failure es) {taken : Nat → Bool}
    (hc : ∀ n, taken n = true → (∃ r ∈ es, r.idx.directive = n) ∧ ∀ r ∈ es, r.idx.directive = n → Idle ds r) :
    ∃ fs ps, Tell (reportsLeft taken es) (fs ++ ps) ∧
      audit L o.bookingMethod o.tolerance (without taken ds) =
        some (fs.map (Finding.renumber (numberIn taken)), ps.map (Finding.renumber (numberIn taken))) := by
  have h75 := C75_reports L hL order hf o ds
  cases ha : audit L o.bookingMethod o.tolerance ds with
  | none => rw [ha, h] at h75; cases h75
  | some q =>
    obtain ⟨fs, ps⟩ := q
    by_cases hne : fs = [] ∧ ps = []
    · obtain ⟨rfl, rfl⟩ := hne
      rw [ha, h] at h75
      obtain ⟨out, w, h75⟩ := h75
      cases h75
    · obtain ⟨es1, h1, ht⟩ := told_of_failure hL hf ha hne
      rw [h] at h1
      cases h1
      have hto : ∀ r ∈ es, ∃ g ∈ fs ++ ps, Announces r g := by
        intro r hr
        obtain ⟨es', p1, p2⟩ := ht
        obtain ⟨i, hi, hri⟩ := List.getElem_of_mem (p1.mem_iff.1 hr)
        have hi' : i < (fs ++ ps).length := by rw [← p2.length_eq]; exact hi
        have hann := p2.get hi hi'
        simp only [List.get_eq_getElem, hri] at hann
        exact ⟨_, List.getElem_mem hi', hann⟩
      have hfrom : ∀ g ∈ fs ++ ps, ∃ r ∈ es, Announces r g := by
        intro g hg
        obtain ⟨es', p1, p2⟩ := ht
        obtain ⟨i, hi, hgi⟩ := List.getElem_of_mem hg
        have hi' : i < es'.length := by rw [p2.length_eq]; exact hi
        have hann := p2.get hi' hi
        simp only [List.get_eq_getElem, hgi] at hann
        exact ⟨_, p1.mem_iff.2 (List.getElem_mem hi'), hann⟩
      have hex : ∀ k, taken k = true → ∃ g ∈ fs ++ ps, g.directive = k := by
        intro k hk
        obtain ⟨r, hr, rfl⟩ := (hc k hk).1
        obtain ⟨g, hg, ha⟩ := hto r hr
        exact ⟨g, hg, by rw [ha.place]⟩
      have hidle : ∀ g ∈ fs ++ ps, taken g.directive = true → ∃ d, ds[g.directive]? = some d ∧ g.fault.idle d := by
        intro g hg hk
        obtain ⟨r, hr, ha⟩ := hfrom g hg
        have hplace : r.idx.directive = g.directive := by rw [ha.place]
        obtain ⟨d, hd⟩ : ∃ d, ds[g.directive]? = some d := by
          have := ((C14_locations L order hf o ds).1 es h r hr).1.1
          rw [hplace] at this
          exact ⟨_, List.getElem?_eq_getElem this⟩
        exact ⟨d, hd, idle_of_report ha ((hc _ hk).2 r hr hplace) hd⟩
      refine ⟨_, _, ?_, without_audit ha hex hidle⟩
      have := left_tell (taken := taken) ht
      unfold findingsLeft at this ⊢
      rwa [List.filter_append] at this

section

variable (L) (hL : L.Lawful) (order : AMap Str (Account L) → AMap Str (Account L))
  (hf : ∀ m, (order m).Perm m) (o : BookOptions) (ds : List Raw.Directive) (es : List IndexedReport)
  (h : book L order o ds = .failure es) (taken : Nat → Bool)
  (hc : ∀ n, taken n = true → (∃ r ∈ es, r.idx.directive = n) ∧ ∀ r ∈ es, r.idx.directive = n → Idle ds r)

include hL hf h hc

/-- C117: a ledger is refused. Some of the directives which are reported, for other reasons than that an assertion fails, that a pad is
followed by another one, or that an account is opened again, are taken out. If there are reports of others then the ledger is still
refused, and reports tell what these tell, of the same directives: nothing is added, and nothing else goes away. -/
theorem C117_reports_partial (hne : reportsLeft taken es ≠ []) :
    ∃ es' fs, book L order o (without taken ds) = .failure es' ∧ Tell (reportsLeft taken es) fs ∧
      Tell es' (fs.map (Finding.renumber (numberIn taken))) := by
  obtain ⟨fs, ps, h1, h2⟩ := without_told hL hf h hc
  obtain ⟨es', k1, k2⟩ := told_of_failure hL hf h2 (by
    rintro ⟨e1, e2⟩
    rw [List.map_eq_nil_iff] at e1 e2
    subst e1 e2
    exact hne ((tell_nil_iff h1).2 rfl))
  exact ⟨es', _, k1, h1, by rw [List.map_append]; exact k2⟩

/-- C117: if all directives which are reported are taken out, and none of them is reported for the other reasons, then the ledger is
accepted. -/
theorem C117_accepted_partial (hall : reportsLeft taken es = []) : ∃ out w, book L order o (without taken ds) = .success out w := by
  obtain ⟨fs, ps, h1, h2⟩ := without_told hL hf h hc
  have := (tell_nil_iff h1).1 hall
  rw [List.append_eq_nil_iff] at this
  obtain ⟨rfl, rfl⟩ := this
  exact ⟨_, _, (C82_returned L hL order hf o _ _ _).2 ⟨h2, rfl, rfl⟩⟩

end

/-- What is left of a ledger is found where `numberIn` says. -/
theorem without_at (taken : Nat → Bool) (ds : List Raw.Directive) (n : Nat) (hn : taken n = false) :
    (without taken ds)[numberIn taken n]? = ds[n]? := by
  have mono : ∀ a b, numberIn taken a ≤ numberIn taken (a + b) := by
    intro a b
    induction b with
    | zero => exact Nat.le_refl _
    | succ b ih => exact ih.trans (by simp [numberIn])
  have key : ∀ (ds : List Raw.Directive) (k n : Nat), taken (k + n) = false →
      (withoutFrom taken k ds)[numberIn taken (k + n) - numberIn taken k]? = ds[n]? := by
    intro ds
    induction ds with
    | nil => intro k n _; simp [withoutFrom]
    | cons d ds ih =>
      intro k n hk
      cases n with
      | zero =>
        rw [Nat.add_zero] at hk
        simp [withoutFrom, hk]
      | succ n =>
        have h1 := ih (k + 1) n (by rw [show k + 1 + n = k + (n + 1) by omega]; exact hk)
        rw [show k + 1 + n = k + (n + 1) by omega] at h1
        have h2 := mono (k + 1) n
        rw [show k + 1 + n = k + (n + 1) by omega] at h2
        have h3 : numberIn taken (k + 1) = numberIn taken k + (!taken k).toNat := rfl
        rw [List.getElem?_cons_succ, ← h1]
        simp only [withoutFrom]
        cases ht : taken k with
        | true =>
          rw [ht] at h3
          simp at h3
          simp [h3]
        | false =>
          rw [ht] at h3
          simp only [Bool.not_false, Bool.toNat_true] at h3
          rw [if_neg (by simp), show numberIn taken (k + (n + 1)) - numberIn taken k =
            numberIn taken (k + (n + 1)) - numberIn taken (k + 1) + 1 by omega, List.getElem?_cons_succ]
  have := key ds 0 n (by simpa using hn)
  simpa [numberIn, without] using this

/-- C117: no directive is reported twice. -/
theorem C117_once (L : BookLib) (hL : L.Lawful) (order : AMap Str (Account L) → AMap Str (Account L)) (hf : ∀ m, (order m).Perm m)
    (o : BookOptions) (ds : List Raw.Directive) (es : List IndexedReport) (h : book L order o ds = .failure es) :
    (es.map fun r => r.idx.directive).Nodup := by
  have h75 := C75_reports L hL order hf o ds
  cases ha : audit L o.bookingMethod o.tolerance ds with
  | none => rw [ha, h] at h75; cases h75
  | some q =>
    obtain ⟨fs, ps⟩ := q
    by_cases hne : fs = [] ∧ ps = []
    · obtain ⟨rfl, rfl⟩ := hne
      rw [ha, h] at h75
      obtain ⟨out, w, h75⟩ := h75
      cases h75
    · obtain ⟨es1, h1, es', p1, p2⟩ := told_of_failure hL hf ha hne
      rw [h] at h1
      cases h1
      have hmap : (es'.map fun r => r.idx.directive) = (fs ++ ps).map fun g => g.directive := by
        clear p1 h75 ha hne
        generalize fs ++ ps = l at p2
        induction p2 with
        | nil => rfl
        | cons h1 _ ih => rw [List.map_cons, List.map_cons, ih, h1.place]
      rw [(p1.map _).nodup_iff, hmap]
      unfold audit at ha
      cases hr : Tally.run o.bookingMethod o.tolerance 0 (Tally.init L) ds with
      | none => rw [hr] at ha; cases ha
      | some q =>
        rw [hr] at ha
        cases ha
        exact run_once ds (pre := []) (Tally.Opened.init L) List.nodup_nil hr

/-- C117 and C103 together: if all reports are of failed assertions, or of directives without effect, then taking out all the latter gives a
ledger which is accepted, or in which only assertions fail, and with a pad before each of these it is accepted. -/
theorem C117_repaired_partial (L : BookLib) (hL : L.Lawful) (hlook : LooksAtItsAccounts L)
    (order : AMap Str (Account L) → AMap Str (Account L)) (hf : ∀ m, (order m).Perm m) (o : BookOptions) (ds : List Raw.Directive)
    (es : List IndexedReport) (h : book L order o ds = .failure es) (hk : ∀ r ∈ es, gapReport r = true ∨ Idle ds r)
    (taken : Nat → Bool) (ht : ∀ n, taken n = true ↔ ∃ r ∈ es, r.idx.directive = n ∧ gapReport r = false)
    (e : Str) (hu : Unused e (without taken ds)) (date : Date) :
    (∃ out w, book L order o (without taken ds) = .success out w) ∨
    ∃ es', book L order o (without taken ds) = .failure es' ∧ (∀ r ∈ es', gapReport r = true) ∧ es'.length = (es.filter gapReport).length ∧
      ∃ out w, book L order o (mended e date (fun n => es'.any fun r => r.idx.directive == n) (without taken ds)) = .success out w := by
  have hone := C117_once L hL order hf o ds es h
  have huniq : ∀ r ∈ es, ∀ r' ∈ es, r.idx.directive = r'.idx.directive → r = r' := by
    intro r hr r' hr' heq
    exact List.inj_on_of_nodup_map hone hr hr' heq
  have hc : ∀ n, taken n = true → (∃ r ∈ es, r.idx.directive = n) ∧ ∀ r ∈ es, r.idx.directive = n → Idle ds r := by
    intro n hn
    obtain ⟨r, hr, hrn, hg⟩ := (ht n).1 hn
    refine ⟨⟨r, hr, hrn⟩, ?_⟩
    intro r' hr' hrn'
    obtain rfl := huniq r' hr' r hr (hrn'.trans hrn.symm)
    rcases hk r' hr' with hx | hx
    · rw [hg] at hx; cases hx
    · exact hx
  have hleft : reportsLeft taken es = es.filter gapReport := by
    unfold reportsLeft
    apply List.filter_congr
    intro r hr
    cases hg : gapReport r with
    | false => rw [(ht _).2 ⟨r, hr, rfl, hg⟩]; rfl
    | true =>
      cases htk : taken r.idx.directive with
      | false => rfl
      | true =>
        obtain ⟨r', hr', hrn', hg'⟩ := (ht _).1 htk
        obtain rfl := huniq r' hr' r hr hrn'
        rw [hg] at hg'
        cases hg'
  by_cases hne : reportsLeft taken es = []
  · exact .inl (C117_accepted_partial L hL order hf o ds es h taken hc hne)
  · right
    obtain ⟨es', fs, h1, ⟨xs, x1, x2⟩, ⟨ys, y1, y2⟩⟩ := C117_reports_partial L hL order hf o ds es h taken hc hne
    rw [hleft] at x1
    have hfs : ∀ g ∈ fs, g.fault.isGap = true := by
      intro g hg
      obtain ⟨i, hi, hgi⟩ := List.getElem_of_mem hg
      have hi' : i < xs.length := by rw [x2.length_eq]; exact hi
      have hann := x2.get hi' hi
      simp only [List.get_eq_getElem, hgi] at hann
      rw [← gap_iff hann]
      exact (List.mem_filter.1 (x1.mem_iff.2 (List.getElem_mem hi'))).2
    have hgap : ∀ r ∈ es', gapReport r = true := by
      intro r hr
      obtain ⟨i, hi, hri⟩ := List.getElem_of_mem (y1.mem_iff.1 hr)
      have hi' : i < (fs.map (Finding.renumber (numberIn taken))).length := by rw [← y2.length_eq]; exact hi
      have hann := y2.get hi hi'
      simp only [List.get_eq_getElem, hri, List.getElem_map] at hann
      rw [gap_iff hann]
      have := hfs _ (List.getElem_mem (by simpa using hi'))
      generalize fs[i]'(by simpa using hi') = g at this
      obtain ⟨k, p, f⟩ := g
      cases f <;> simp_all [Fault.isGap, Finding.renumber, Fault.renumber]
    refine ⟨es', h1, hgap, ?_, ?_⟩
    · rw [y1.length_eq, y2.length_eq, List.length_map, ← x2.length_eq, ← x1.length_eq]
    · refine C103_accepted L hL hlook order hf o _ es' h1 e hu date _ ?_ ?_
      · intro n hn
        obtain ⟨r, hr, hrn⟩ := List.any_eq_true.1 hn
        exact ⟨r, hr, by simpa using hrn, hgap r hr⟩
      · unfold others
        rw [List.filter_eq_nil_iff]
        intro r hr
        simp only [Bool.not_eq_true', Bool.not_eq_false]
        rw [hgap r hr, Bool.and_true]
        exact List.any_eq_true.2 ⟨r, hr, by simp⟩

namespace Ex

open Toy

/-- An assertion which fails, and after that one which holds; an account which is closed and opened again; two pads. -/
def secondAssertion : List Raw.Directive := [mkOpen 1 bank, mkBal 2 bank ⟨100, 0⟩ nzd, mkBal 3 bank ⟨100, 0⟩ nzd]
def openedAgain : List Raw.Directive :=
  [mkOpen 1 bank, mkOpen 1 food, mkClose 2 food, mkOpen 3 food, mkTxn 4 [(food, ⟨20, 0⟩, nzd), (bank, ⟨-20, 0⟩, nzd)]]
def paddedTwice : List Raw.Directive :=
  [mkOpen 1 bank, mkOpen 1 equity, mkPad 2 bank equity, mkPad 3 bank equity, mkBal 4 bank ⟨100, 0⟩ nzd]

/-- A transaction refused, an account opened twice, a pad which is not needed, an account closed which was never opened, a failed
assertion, and a pad which waits at the end. -/
def sixFaults : List Raw.Directive :=
  [mkOpen 1 bank, mkOpen 1 food, mkOpen 1 equity, mkOpen 2 bank, mkTxn 3 [(food, ⟨20, 0⟩, nzd), (bank, ⟨-20, 0⟩, nzd)],
    mkTxn 3 [(bank2, ⟨20, 0⟩, nzd), (bank, ⟨-20, 0⟩, nzd)], mkPad 4 bank equity, mkClose 4 bank2, mkBal 5 bank ⟨-20, 0⟩ nzd,
    mkBal 6 food ⟨25, 0⟩ nzd, mkPad 7 bank equity]

end Ex

/-- C117 is false for the other reasons. Without a failed assertion the next one fails. Without the second opening of a closed account
what is posted to it afterwards is refused. And without the first of two pads the second one is used, which is otherwise dropped with the
first, so that an assertion no longer fails. -/
theorem C117_false :
    (Ex.placed (Toy.run Ex.secondAssertion) = [(1, .accumulated ⟨0, 0⟩ ⟨100, 0⟩ Ex.nzd)] ∧
      Ex.placed (Toy.run (without (· == 1) Ex.secondAssertion)) = [(1, .accumulated ⟨0, 0⟩ ⟨100, 0⟩ Ex.nzd)]) ∧
    (Ex.placed (Toy.run Ex.openedAgain) = [(3, .accountClosed)] ∧
      Ex.placed (Toy.run (without (· == 3) Ex.openedAgain)) = [(3, .accountClosed)]) ∧
    (Ex.placed (Toy.run Ex.paddedTwice) = [(2, .unusedSecondPad), (4, .accumulated ⟨0, 0⟩ ⟨100, 0⟩ Ex.nzd)] ∧
      Ex.placed (Toy.run (without (· == 2) Ex.paddedTwice)) = []) := by
  decide +kernel

namespace Ex

open Toy

/-- Two of six taken out, then all but the failed assertion, and then a pad before this. -/
example :
    placed (run sixFaults) = [(3, .alreadyOpened), (5, .accountNotOpen), (7, .accountNotOpen), (6, .unusedNoAdjustment),
      (9, .accumulated ⟨20, 0⟩ ⟨5, 0⟩ nzd), (10, .unusedNoBalance)] ∧
    placed (run (without (fun n => n == 3 || n == 5) sixFaults)) = [(5, .accountNotOpen), (4, .unusedNoAdjustment),
      (7, .accumulated ⟨20, 0⟩ ⟨5, 0⟩ nzd), (8, .unusedNoBalance)] ∧
    placed (run (without (fun n => [3, 5, 6, 7, 10].contains n) sixFaults)) = [(5, .accumulated ⟨20, 0⟩ ⟨5, 0⟩ nzd)] ∧
    (match run (mended bank2 (day 1) (· == 5) (without (fun n => [3, 5, 6, 7, 10].contains n) sixFaults)) with
      | .success ds _ => ds.length == 9
      | _ => false) = true := by
  decide +kernel

end Ex

end Limabean
