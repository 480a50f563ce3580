/-
A directive is added to a ledger: the numbers of those after it change, and nothing else if the directive changes nothing.
-/
import Verif.Proofs.FrameLemmas
import Verif.Proofs.RelaxedLemmas
import Verif.Proofs.OpeningLemmas
import Verif.Props.C12

namespace Limabean

open Spec

variable {L : BookLib}

/-- The same, with other numbers. -/
def Tally.renum (f : Nat → Nat) (s : Tally L) : Tally L :=
  { names := s.names
    terms := fun a => (s.terms a).map fun t => (f t.1, t.2)
    standing := fun a => (s.standing a).renumber f
    held := s.held
    pending := fun a => (s.pending a).map fun t => (f t.1, t.2) }

/-- What came out, with other numbers. -/
def renumOut (f : Nat → Nat) (r : Tally L × List Finding) : Tally L × List Finding :=
  (Tally.renum f r.1, r.2.map (Finding.renumber f))

theorem renum_at (f : Nat → Nat) (s : Tally L) (a : Str) : SameAt f s (Tally.renum f s) a := ⟨rfl, rfl, rfl, rfl, Iff.rfl⟩

theorem renum_init (f : Nat → Nat) : Tally.renum f (Tally.init L) = Tally.init L := rfl

theorem renum_method (f : Nat → Nat) (s : Tally L) (option : Option Booking) : (Tally.renum f s).method option = s.method option :=
  funext fun a => (renum_at f s a).method option

theorem update_map {V W : Type} (g : V → W) (h : Str → V) (a : Str) (v : V) :
    (fun x => g (Function.update h a v x)) = Function.update (fun x => g (h x)) a (g v) := by
  funext x
  by_cases hx : x = a
  · subst hx; simp
  · simp [Function.update_of_ne hx]

theorem renum_step (f : Nat → Nat) (s : Tally L) (option : Option Booking) (tol : Tolerance) (n : Nat) (d : Raw.Directive) :
    (Tally.renum f s).step option tol (f n) d = (s.step option tol n d).map (renumOut f) := by
  have unch : ∀ g, (Tally.renum f s).unchanged (f n) (g.renumber f) = (s.unchanged n g).map (renumOut f) := fun _ => rfl
  have total : ∀ a c, (Tally.renum f s).total a c = s.total a c := fun _ _ => rfl
  unfold Tally.step
  cases hv : d.variant with
  | opn o =>
    simp only [(renum_at f s o.acc).standing]
    cases s.standing o.acc with
    | unknown =>
      simp only [Standing.renumber, Option.map_some, renumOut, List.map_nil, Option.some.injEq, Prod.mk.injEq, and_true]
      unfold Tally.renum
      dsimp only
      congr 1
      · exact (update_map (fun t : Option (Nat × Raw.Open) => t.map fun t => (f t.1, t.2)) s.terms o.acc (some (n, o))).symm
      · exact (update_map (fun t : Standing => t.renumber f) s.standing o.acc (.opn n)).symm
    | opn k => exact unch (.alreadyOpen k)
    | reopened k j => exact unch (.alreadyOpen k)
    | closed k =>
      simp only [Standing.renumber, Option.map_some, renumOut, Option.some.injEq, Prod.mk.injEq]
      refine ⟨?_, rfl⟩
      unfold Tally.renum
      dsimp only
      congr 1
      exact (update_map (fun t : Standing => t.renumber f) s.standing o.acc (.reopened n k)).symm
  | close c =>
    simp only [(renum_at f s c.acc).standing]
    cases s.standing c.acc with
    | unknown => exact unch .notOpen
    | opn k =>
      simp only [Standing.renumber, Option.map_some, renumOut, Option.some.injEq, Prod.mk.injEq]
      refine ⟨?_, rfl⟩
      unfold Tally.renum
      dsimp only
      congr 1
      exact (update_map (fun t : Standing => t.renumber f) s.standing c.acc (.closed n)).symm
    | reopened k j => exact unch (.alreadyClosed j)
    | closed k => exact unch .notOpen
  | transaction t =>
    simp only [renum_method]
    rw [show (Tally.renum f s).held = s.held from rfl]
    cases L.book d.date t.postings tol s.held (s.method option) with
    | error e => exact unch (.refused e)
    | ok r =>
      simp only [wrongPosting_renumber (f := f) 0 (r.interpolated.zip t.postings) (fun z _ => renum_at f s z.2.acc)]
      cases s.wrongPosting 0 (r.interpolated.zip t.postings) with
      | some x => rfl
      | none => rfl
  | balance b =>
    simp only [(renum_at f s b.acc).usage, total, (renum_at f s b.acc).pending]
    cases s.usage b.acc b.cur with
    | some x => exact unch x
    | none =>
      simp only [Option.map_none]
      have hp : ∀ t : Tally L, Tally.renum f { t with pending := Function.update t.pending b.acc none } =
          { Tally.renum f t with pending := Function.update (Tally.renum f t).pending b.acc none } := by
        intro t
        simp only [Tally.renum, update_map (fun t : Option (Nat × Str) => t.map fun t => (f t.1, t.2)), Option.map_none]
      cases (b.units.sub (s.total b.acc b.cur)).abs.gt (toleranceDec tol.multiplier b) with
      | false =>
        cases s.pending b.acc with
        | none => rfl
        | some x =>
          simp only [Option.map_some, renumOut, hp]
          rfl
      | true =>
        cases s.pending b.acc with
        | none => rfl
        | some x =>
          simp only [Option.map_some]
          rw [show (Tally.renum f s).names = s.names from rfl]
          split
          · simp only [Option.map_some, renumOut, Option.some.injEq, Prod.mk.injEq]
            refine ⟨?_, rfl⟩
            have hc : ∀ (t : Tally L) a u c, Tally.renum f (t.change a u c) = (Tally.renum f t).change a u c := fun _ _ _ _ => rfl
            rw [hc, hc, hp]
            rfl
          · rfl
  | pad p =>
    simp only [(renum_at f s p.acc).account, (renum_at f s p.acc).pending]
    cases s.account p.acc with
    | some x => cases s.pending p.acc <;> exact unch x
    | none =>
      simp only [Option.map_none]
      cases s.pending p.acc with
      | none =>
        simp only [Option.map_none, Option.map_some, renumOut, Option.some.injEq, Prod.mk.injEq]
        refine ⟨?_, rfl⟩
        simp only [Tally.renum, update_map (fun t : Option (Nat × Str) => t.map fun t => (f t.1, t.2)), Option.map_some]
      | some x =>
        simp only [Option.map_some, renumOut, Option.some.injEq, Prod.mk.injEq]
        refine ⟨?_, rfl⟩
        simp only [Tally.renum, update_map (fun t : Option (Nat × Str) => t.map fun t => (f t.1, t.2)), Option.map_none]
  | _ => rfl

theorem renum_run (f : Nat → Nat) (option : Option Booking) (tol : Tolerance) (ds : List Raw.Directive) {n m : Nat}
    (h : ∀ k < ds.length, f (n + k) = m + k) (s : Tally L) :
    Tally.run option tol m (Tally.renum f s) ds = (Tally.run option tol n s ds).map (renumOut f) := by
  induction ds generalizing n m s with
  | nil => rfl
  | cons d ds ih =>
    have h0 := h 0 (by simp)
    simp only [Nat.add_zero] at h0
    simp only [Tally.run]
    rw [← h0, renum_step]
    cases hs : s.step option tol n d with
    | none => rfl
    | some r =>
      obtain ⟨s', fs⟩ := r
      simp only [Option.map_some, renumOut]
      rw [h0, ih (n := n + 1) (m := m + 1) (fun k hk => by
        have := h (k + 1) (by simpa using hk)
        rw [show n + 1 + k = n + (k + 1) by omega, this]; omega)]
      cases Tally.run option tol (n + 1) s' ds with
      | none => rfl
      | some r => simp [renumOut]

/-- What is remembered of the directives so far does not refer to later ones. -/
theorem renum_prefix {f : Nat → Nat} {option : Option Booking} {tol : Tolerance} {pre : List Raw.Directive} {s : Tally L} {fs : List Finding}
    (hf : ∀ k < pre.length, f k = k) (h : Tally.run option tol 0 (Tally.init L) pre = some (s, fs)) :
    Tally.renum f s = s ∧ fs.map (Finding.renumber f) = fs := by
  have := renum_run f option tol pre (n := 0) (m := 0) (by simpa using hf) (Tally.init L)
  rw [renum_init, h] at this
  simp only [Option.map_some, renumOut, Option.some.injEq, Prod.mk.injEq] at this
  exact ⟨this.1.symm, this.2.symm⟩

theorem shiftAt_lt {n k : Nat} (h : k < n) : shiftAt n k = k := by simp [shiftAt, h]

/-- A directive which changes nothing and has no fault is added: the faults are those of before. -/
theorem inserted_audit {option : Option Booking} {tol : Tolerance} {pre post : List Raw.Directive} {d : Raw.Directive} {s : Tally L} {fs : List Finding}
    (h : Tally.run option tol 0 (Tally.init L) pre = some (s, fs)) (hd : s.step option tol pre.length d = some (s, [])) :
    audit L option tol (pre ++ d :: post) = (audit L option tol (pre ++ post)).map fun r =>
      (r.1.map (Finding.renumber (shiftAt pre.length)), r.2.map (Finding.renumber (shiftAt pre.length))) := by
  obtain ⟨h1, h2⟩ := renum_prefix (f := shiftAt pre.length) (fun k hk => shiftAt_lt hk) h
  have h3 := renum_run (shiftAt pre.length) option tol post (n := pre.length) (m := pre.length + 1)
    (fun k _ => by simp only [shiftAt, if_neg (show ¬ pre.length + k < pre.length by omega)]; omega) s
  rw [h1] at h3
  unfold audit
  rw [Tally.run_append, Tally.run_append, h]
  simp only [Nat.zero_add, Tally.run, hd, h3]
  cases Tally.run option tol pre.length s post with
  | none => rfl
  | some r =>
    obtain ⟨t, gs⟩ := r
    simp only [Option.map_some, renumOut, List.nil_append, Option.some.injEq, Prod.mk.injEq, List.map_append]
    refine ⟨by rw [h2], ?_⟩
    unfold Tally.unbalanced
    rw [show (Tally.renum (shiftAt pre.length) t).names = t.names from rfl, List.map_filterMap]
    congr 1
    funext a
    rw [(renum_at (shiftAt pre.length) t a).pending]
    cases t.pending a <;> rfl

theorem Waits.run {option : Option Booking} {tol : Tolerance} (ds : List Raw.Directive) {pre : List Raw.Directive} {s s' : Tally L} {n : Nat}
    (h : Waits pre s) (hs : Tally.run option tol n s ds = some (s', [])) : Waits (pre ++ ds) s' := by
  induction ds generalizing pre s n with
  | nil =>
    simp only [Tally.run, Option.some.injEq, Prod.mk.injEq, and_true] at hs
    subst hs
    simpa using h
  | cons d ds ih =>
    simp only [Tally.run] at hs
    cases hd : s.step option tol n d with
    | none => simp [hd] at hs
    | some r =>
      obtain ⟨t, fs⟩ := r
      rw [hd] at hs
      simp only at hs
      cases hr : Tally.run option tol (n + 1) t ds with
      | none => simp [hr] at hs
      | some q =>
        obtain ⟨u, gs⟩ := q
        simp only [hr, Option.some.injEq, Prod.mk.injEq, List.append_eq_nil_iff] at hs
        obtain ⟨rfl, rfl, rfl⟩ := hs
        have := ih (h.step hd) hr
        simpa using this

/-- The account may be used so exactly if it is open and takes the currency. -/
theorem usage_none_iff {s : Tally L} {pre : List Raw.Directive} (h : Led pre s) (a c : Str) :
    s.usage a c = none ↔ IsOpen pre a ∧ Permits pre a c := by
  constructor
  · intro hu
    have hl := h.life a
    unfold Tally.usage Tally.account at hu
    unfold IsOpen Permits
    generalize s.standing a = x at *
    generalize s.terms a = t at *
    generalize life pre a = l at *
    cases hl with
    | never => cases hu
    | closed o _ _ => cases hu
    | opn o _ _ =>
      refine ⟨⟨o, rfl⟩, ?_⟩
      rintro o' (ho | ho)
      · cases ho
        simp only [ite_eq_left_iff, reduceCtorEq, imp_false, not_not] at hu
        exact hu
      · cases ho
  · rintro ⟨⟨o, ho⟩, hp⟩
    exact (usage_open h ho (hp o (.inl ho))).1

/-- An assertion for whose account no pad waits has no fault exactly if the account is open, takes the currency, and holds the amount. -/
theorem assertion_step {option : Option Booking} {tol : Tolerance} {pre : List Raw.Directive} {s : Tally L} {d : Raw.Directive} {b : Raw.Balance}
    (hv : d.variant = .balance b) (hl : Led pre s) (hp : s.pending b.acc = none) (n : Nat) :
    (IsOpen pre b.acc ∧ Permits pre b.acc b.cur ∧ |b.units.val - (s.total b.acc b.cur).val| ≤ tolerance tol.multiplier b →
      s.step option tol n d = some (s, [])) ∧
    (¬ (IsOpen pre b.acc ∧ Permits pre b.acc b.cur ∧ |b.units.val - (s.total b.acc b.cur).val| ≤ tolerance tol.multiplier b) →
      ∃ s' x, s.step option tol n d = some (s', [{ directive := n, fault := x }])) := by
  have hu := usage_none_iff hl b.acc b.cur
  have hg : (b.units.sub (s.total b.acc b.cur)).abs.gt (toleranceDec tol.multiplier b) = true ↔
      ¬ |b.units.val - (s.total b.acc b.cur).val| ≤ tolerance tol.multiplier b := by
    rw [Dec.gt_iff, Dec.val_abs, Dec.val_sub, tolerance_val, gt_iff_lt, not_le]
  simp only [Tally.step, hv]
  cases hx : s.usage b.acc b.cur with
  | some x =>
    rw [hx] at hu
    refine ⟨fun h => ?_, fun _ => ⟨_, _, rfl⟩⟩
    have := hu.2 ⟨h.1, h.2.1⟩
    cases this
  | none =>
    obtain ⟨h1, h2⟩ := hu.1 hx
    simp only [h1, h2, true_and, hp]
    cases hy : (b.units.sub (s.total b.acc b.cur)).abs.gt (toleranceDec tol.multiplier b) with
    | false =>
      refine ⟨fun _ => rfl, fun h => ?_⟩
      rw [hg.2 h] at hy
      cases hy
    | true =>
      exact ⟨fun h => absurd h (hg.1 hy), fun _ => ⟨_, _, rfl⟩⟩

end Limabean
