/-
The report of a failed assertion with decimals of limited size.
-/
import Verif.Proofs.PlacesRun

namespace Limabean
open Spec

variable {L : BookLib} {E : L.Pos → L.Pos → Prop}

theorem ReportNear.refl (x : IndexedReport) : ReportNear x x := by
  refine ⟨rfl, rfl, .inl rfl, ?_⟩
  cases x.annotation with
  | none => exact .none
  | some l => exact .some (List.forall₂_same.2 fun _ _ => ⟨rfl, rfl, rfl⟩)

/-- Rows as `diagnose` makes them, which agree but for the number of decimal places. -/
def TupleNear (x y : Date × Str × Str × Dec × Dec × Option Str) : Prop :=
  x.1 = y.1 ∧ x.2.1 = y.2.1 ∧ x.2.2.1 = y.2.2.1 ∧ x.2.2.2.1.val = y.2.2.2.1.val ∧ x.2.2.2.2.1.val = y.2.2.2.2.1.val ∧
    x.2.2.2.2.2 = y.2.2.2.2.2

/-- What diagnosing yields, with decimals of limited size and exactly. -/
def DiagNear (n : Nat) (bound : ℚ) (x y : Dec × List (Date × Str × Str × Dec × Dec × Option Str)) : Prop :=
  x.1.val = y.1.val ∧ x.1.s ≤ n ∧ |x.1.val| ≤ bound ∧ List.Forall₂ TupleNear x.2 y.2

theorem diagnosePostingsIn_near {A : Arith} (hA : A.Lawful) {n : Nat} (hn : n ≤ 28) (base : Str) (date : Date) (desc : Option Str)
    {ps qs : List Booked.Posting} (h : List.Forall₂ PostingNear ps qs) : ∀ t t' : Dec, t.val = t'.val → t.s ≤ n →
    (∀ p ∈ ps, p.units.s ≤ n) → (|t.val| + (ps.map fun p => |p.units.val|).sum) * 10 ^ n < 2 ^ 96 →
    ∃ r, diagnosePostingsIn A base date desc t ps = some r ∧
      DiagNear n (|t.val| + (ps.map fun p => |p.units.val|).sum) r (diagnosePostings base date desc t' qs) := by
  induction h with
  | nil => intro t t' htt ht _ _; exact ⟨(t, []), rfl, htt, ht, by simp, .nil⟩
  | @cons p q ps qs hpq _ ih =>
    intro t t' htt ht hp hsz
    have hacc : p.acc = q.acc := by simpa using congrArg Booked.Posting.acc hpq.2
    have hP : (0 : ℚ) < 10 ^ n := by positivity
    have h0 := sum_abs_nonneg (fun p : Booked.Posting => p.units.val) ps
    have ha := abs_nonneg t.val
    have hb := abs_nonneg p.units.val
    have hpn := hp p (by simp)
    simp only [List.map_cons, List.sum_cons] at hsz ⊢
    have small : ∀ v : ℚ, v ≤ |t.val| + (|p.units.val| + (ps.map fun p => |p.units.val|).sum) → v * 10 ^ n < 2 ^ 96 :=
      fun v hv => lt_of_le_of_lt (mul_le_mul_of_nonneg_right hv hP.le) hsz
    simp only [diagnosePostingsIn, diagnosePostings, hacc]
    by_cases hs : isNonstrictSubaccount base q.acc = true
    · rw [if_pos hs, if_pos hs]
      have hsum : |t.val + p.units.val| ≤ |t.val| + |p.units.val| := abs_add_le _ _
      obtain ⟨u, h1, h2, h3⟩ := hA.add_exact t p.units (Dec.fits_of hn ht (small _ (by linarith))) (Dec.fits_of hn hpn (small _ (by linarith)))
        (Dec.fits_of hn (by simpa [Dec.add] using ⟨ht, hpn⟩) (small _ (by rw [Dec.val_add]; linarith)))
      obtain ⟨r, g1, g2, g3, g4, g5⟩ := ih u (t'.add q.units) (by rw [h2, Dec.val_add, htt, hpq.1]) (h3.trans (max_le ht hpn))
        (fun x hx => hp x (List.mem_cons_of_mem _ hx)) (small _ (by rw [h2]; linarith))
      rw [h1]
      dsimp only
      rw [g1]
      refine ⟨_, rfl, g2, g3, by rw [h2] at g4; dsimp only; linarith, .cons ⟨rfl, rfl, rfl, hpq.1, ?_, rfl⟩ g5⟩
      dsimp only
      rw [h2, Dec.val_add, htt, hpq.1]
    · rw [if_neg hs, if_neg hs]
      obtain ⟨r, g1, g2, g3, g4, g5⟩ := ih t t' htt ht (fun x hx => hp x (List.mem_cons_of_mem _ hx)) (small _ (by linarith))
      exact ⟨r, g1, g2, g3, by linarith, g5⟩

theorem everything_cons (d : Booked.Directive) (l : List Booked.Directive) :
    everything (d :: l) = ((postingsOf d).map fun p => |p.units.val|).sum + everything l := by
  simp [everything, postings]

theorem diagnoseIn_near {A : Arith} (hA : A.Lawful) {n : Nat} (hn : n ≤ 28) (base : Str) {l m : List Booked.Directive}
    (h : LedgerNear l m) : ∀ t t' : Dec, t.val = t'.val → t.s ≤ n → (∀ p ∈ postings l, p.units.s ≤ n) →
    (|t.val| + everything l) * 10 ^ n < 2 ^ 96 →
    ∃ r, diagnoseIn A base t l = some r ∧ DiagNear n (|t.val| + everything l) r (diagnose base t' m) := by
  induction h with
  | nil => intro t t' htt ht _ _; exact ⟨(t, []), rfl, htt, ht, by simp [everything, postings], .nil⟩
  | @cons d e l m hde _ ih =>
    intro t t' htt ht hp hsz
    have hP : (0 : ℚ) < 10 ^ n := by positivity
    have h0 : 0 ≤ everything l := sum_abs_nonneg (fun p : Booked.Posting => p.units.val) _
    rw [everything_cons] at hsz ⊢
    have h1 := sum_abs_nonneg (fun p : Booked.Posting => p.units.val) (postingsOf d)
    have small : ∀ v : ℚ, v ≤ |t.val| + (((postingsOf d).map fun p => |p.units.val|).sum + everything l) → v * 10 ^ n < 2 ^ 96 :=
      fun v hv => lt_of_le_of_lt (mul_le_mul_of_nonneg_right hv hP.le) hsz
    have hpl : ∀ p ∈ postings l, p.units.s ≤ n := fun p hpm => hp p (by
      unfold postings at hpm ⊢
      rw [List.flatMap_cons, List.mem_append]
      exact .inr hpm)
    have hpd : ∀ p ∈ postingsOf d, p.units.s ≤ n := fun p hpm => hp p (by
      unfold postings
      rw [List.flatMap_cons, List.mem_append]
      exact .inl hpm)
    by_cases htx : ∃ x, d.variant = .transaction x
    · obtain ⟨x, hx⟩ := htx
      have hv := hde.variant
      rw [hx] at hv
      have hy : ∃ y, e.variant = .transaction y := by
        cases he : e.variant <;> rw [he] at hv <;> first | exact ⟨_, rfl⟩ | cases hv
      obtain ⟨y, hy⟩ := hy
      rw [hy] at hv
      obtain ⟨hv1, hv2⟩ := hv
      have hpo : postingsOf d = x.postings := by unfold postingsOf; rw [hx]
      rw [hpo] at h1 hpd small hsz ⊢
      simp only [diagnoseIn, diagnose, hx, hy]
      obtain ⟨r, g1, g2, g3, g4, g5⟩ := diagnosePostingsIn_near hA hn base d.date (x.payee.orElse fun _ => x.narration) hv1 t t' htt ht hpd
        (small _ (by linarith))
      have hd : diagnosePostings base e.date (y.payee.orElse fun _ => y.narration) t' y.postings =
          diagnosePostings base d.date (x.payee.orElse fun _ => x.narration) t' y.postings := by
        have := hv2
        simp only [Booked.Transaction.mk.injEq, and_true] at this
        rw [hde.date, this.2.1, this.2.2]
      obtain ⟨r', k1, k2, k3, k4, k5⟩ := ih r.1 _ g2 g3 hpl (small _ (by linarith))
      rw [g1]
      dsimp only
      rw [k1, hd]
      exact ⟨_, rfl, k2, k3, by dsimp only; linarith, List.rel_append g5 k5⟩
    · have hno : ∀ x, e.variant ≠ .transaction x := by
        intro y hy
        have hv := hde.variant
        rw [hy] at hv
        cases hd : d.variant <;> rw [hd] at hv <;> first | (simp [VariantNear] at hv; done) | exact htx ⟨_, hd⟩
      have e1 : diagnoseIn A base t (d :: l) = diagnoseIn A base t l := by
        cases hd : d.variant <;> first | (simp [diagnoseIn, hd]; done) | exact absurd ⟨_, hd⟩ htx
      have e2 : diagnose base t' (e :: m) = diagnose base t' m := by
        cases hd : e.variant <;> first | (simp [diagnose, hd]; done) | exact absurd hd (hno _)
      rw [e1, e2]
      obtain ⟨r, k1, k2, k3, k4, k5⟩ := ih t t' htt ht hpl (small _ (by linarith))
      exact ⟨r, k1, k2, k3, by linarith, k5⟩

theorem everything_near {l m : List Booked.Directive} (h : LedgerNear l m) : everything l = everything m := by
  unfold everything
  have := postings_near h
  revert this
  generalize postings l = ps
  generalize postings m = qs
  intro this
  induction this with
  | nil => rfl
  | cons hpq _ ih => simp only [List.map_cons, List.sum_cons, ih, hpq.1]

theorem postings_slice {l : List Booked.Directive} (i j : Nat) : (postings ((l.take j).drop i)).Sublist (postings l) := by
  unfold postings
  have h := (List.drop_sublist i (l.take j)).trans (List.take_sublist j l)
  generalize (l.take j).drop i = k at h
  induction h with
  | slnil => exact List.Sublist.refl _
  | cons a _ ih =>
    rw [List.flatMap_cons]
    exact ih.trans (List.sublist_append_right _ _)
  | cons_cons a _ ih =>
    rw [List.flatMap_cons, List.flatMap_cons]
    exact List.Sublist.append (List.Sublist.refl _) ih

theorem everything_slice {l : List Booked.Directive} (i j : Nat) : everything ((l.take j).drop i) ≤ everything l := by
  have h := postings_slice (l := l) i j
  unfold everything
  generalize postings ((l.take j).drop i) = ps at h
  generalize postings l = qs at h
  induction h with
  | slnil => exact le_refl _
  | cons a _ ih =>
    rw [List.map_cons, List.sum_cons]
    have := abs_nonneg a.units.val
    linarith
  | cons_cons a _ ih =>
    rw [List.map_cons, List.sum_cons, List.map_cons, List.sum_cons]
    linarith

theorem reportBase_near {l m : List Booked.Directive} (h : LedgerNear l m) (cur : Str) (w : Window) : reportBase cur w l = reportBase cur w m := by
  unfold reportBase
  gen_like hg : (h.at w.start)
  cases hg with
  | none => rfl
  | @some d e hde =>
    have hv := hde.variant
    obtain ⟨_, _, _, _, _, v⟩ := d
    obtain ⟨_, _, _, _, _, w⟩ := e
    cases v <;> cases w <;> first | rfl | (cases hv; done) | (cases hv; rfl)

/-- The amount which a report starts from is nothing, or that of an assertion. -/
theorem reportBase_cases (cur : Str) (w : Window) (m : List Booked.Directive) :
    reportBase cur w m = Dec.zero ∨ ∃ x ∈ m, ∃ bal, x.variant = .balance bal ∧ reportBase cur w m = bal.raw.units := by
  unfold reportBase
  split
  · rename_i bal hx
    split
    · exact .inr ⟨_, List.mem_of_getElem? hx, bal, rfl, rfl⟩
    · exact .inl rfl
  · exact .inl rfl

theorem balanceReportIn_near {A : Arith} (hA : A.Lawful) {n : Nat} (hn : n ≤ 28) {s t : State L} (hst : StateNear E s t)
    {l m : List Booked.Directive} (hl : LedgerNear l m) (hp : ∀ p ∈ postings l, p.units.s ≤ n) (hall : everything m * 10 ^ n < 2 ^ 96)
    (hbal : ∀ x ∈ m, ∀ bal, x.variant = .balance bal → bal.raw.units.s ≤ n ∧ (everything m + |bal.raw.units.val|) * 10 ^ n < 2 ^ 96)
    {base : Str} {x y : Dec} (hxy : x.val = y.val) {cur : Str} {e : ElementIdx} {R : IndexedReport}
    (h : t.balanceReport base y cur e m = some R) : ∃ R', s.balanceReportIn A base x cur e l = some R' ∧ ReportNear R' R := by
  unfold State.balanceReport at h
  unfold State.balanceReportIn
  revert h
  gen_like hg : (hst.accounts.get base)
  cases hg with
  | none => intro h; cases h
  | @some a b hab =>
    dsimp only
    rw [hab.window]
    cases b.window with
    | none => intro h; cases h
    | some w =>
      dsimp only
      rw [hl.length_eq]
      split
      · intro h
        have hslice : LedgerNear ((l.take w.stop).drop w.start) ((m.take w.stop).drop w.start) :=
          List.forall₂_drop _ (List.forall₂_take _ hl)
        have hev := everything_slice (l := l) w.start w.stop
        rw [everything_near hl] at hev
        have hP : (0 : ℚ) < 10 ^ n := by positivity
        have hb : (reportBase cur w m).s ≤ n ∧ (everything m + |(reportBase cur w m).val|) * 10 ^ n < 2 ^ 96 := by
          rcases reportBase_cases cur w m with h0 | ⟨x, hx, bal, hb, h0⟩
          · rw [h0]
            exact ⟨Nat.zero_le _, by simpa using hall⟩
          · rw [h0]
            exact hbal x hx bal hb
        obtain ⟨r, g1, g2, -, -, g5⟩ := diagnoseIn_near hA hn base hslice (reportBase cur w l) (reportBase cur w m)
          (by rw [reportBase_near hl]) (by rw [reportBase_near hl]; exact hb.1) (fun p hpm => hp p ((postings_slice _ _).mem hpm)) (by
            rw [reportBase_near hl]
            refine lt_of_le_of_lt (mul_le_mul_of_nonneg_right ?_ hP.le) hb.2
            linarith)
        rw [g1]
        dsimp only at h ⊢
        cases h
        refine ⟨_, rfl, rfl, rfl, .inr ⟨_, _, _, _, _, rfl, rfl, g2, hxy⟩, .some ?_⟩
        have hacc : (r.2.map fun x => x.2.1) = ((diagnose base (reportBase cur w m) ((m.take w.stop).drop w.start)).2.map fun x => x.2.1) := by
          clear g1 g2
          generalize r.2 = xs at g5
          generalize (diagnose base (reportBase cur w m) ((m.take w.stop).drop w.start)).2 = ys at g5
          induction g5 with
          | nil => rfl
          | cons h1 _ ih => rw [List.map_cons, List.map_cons, ih, h1.2.1]
        rw [hacc]
        rw [List.forall₂_map_left_iff, List.forall₂_map_right_iff]
        refine g5.imp ?_
        rintro ⟨d1, a1, r1, u1, t1, s1⟩ ⟨d2, a2, r2, u2, t2, s2⟩ ⟨e1, e2, e3, e4, e5, e6⟩
        dsimp only at e1 e2 e3 e4 e5 e6
        subst e1 e2 e3 e6
        exact ⟨e4, e5, rfl⟩
      · intro h; cases h

theorem Run.loopIn_append (A : Arith) (env : Env L) (n : Nat) (ds ds' : List Raw.Directive) (r : Run L) :
    Run.loopIn A env n (ds ++ ds') r = (Run.loopIn A env n ds r).bind (Run.loopIn A env (n + ds.length) ds') := by
  induction ds generalizing n r with
  | nil => simp [Run.loopIn]
  | cons d ds ih =>
    simp only [List.cons_append, Run.loopIn, List.length_cons]
    cases r.stepIn A env n d with
    | none => rfl
    | some r' =>
      simp only [ih]
      congr 2
      omega

end Limabean
