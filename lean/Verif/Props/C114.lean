/-
C114: a greater tolerance does no harm, except where there is a pad.
-/
import Verif.Proofs.ContinuedRun
import Verif.Proofs.UnpaddedLemmas
import Verif.Props.C103

namespace Limabean

open Spec

namespace Spec

/-- Some pad is for the account. -/
def Padded (ds : List Raw.Directive) (acc : Str) : Prop := ∃ d ∈ ds, ∃ p, d.variant = .pad p ∧ p.acc = acc

/-- The second assertion is about the same amount and allows as much or more; it is as before if the account is ever padded. -/
structure LooserAssertion (m m' : Option Dec) (padded : Str → Prop) (b b' : Raw.Balance) : Prop where
  acc : b'.acc = b.acc
  cur : b'.cur = b.cur
  units : b'.units.val = b.units.val
  allows : tolerance m b ≤ tolerance m' b'
  padded : padded b.acc → b'.units = b.units ∧ tolerance m' b' = tolerance m b

/-- The same directive, but for assertions, which are related. -/
inductive Reasserted (R : Raw.Balance → Raw.Balance → Prop) : Raw.Directive → Raw.Directive → Prop
  | other (d) : (∀ b, d.variant ≠ .balance b) → Reasserted R d d
  | balance (d b b') : d.variant = .balance b → R b b' → Reasserted R d { d with variant := .balance b' }

/-- The same booked directive, but for assertions, which are related. -/
inductive ReassertedBooked (R : Raw.Balance → Raw.Balance → Prop) : Booked.Directive → Booked.Directive → Prop
  | same (d) : (∀ b, d.variant ≠ .balance b) → ReassertedBooked R d d
  | balance (d b b') : d.variant = .balance { raw := b } → R b b' → ReassertedBooked R d { d with variant := .balance { raw := b' } }

/-- What the booking library accepts with one tolerance it accepts with the other, to the same effect. -/
def Lenient (L : BookLib) (tol tol' : Tolerance) : Prop :=
  ∀ date ps held method r, L.book date ps tol held method = .ok r → L.book date ps tol' held method = .ok r

end Spec

variable {L : BookLib}

theorem Reasserted.stepOne {option : Option Booking} {tol tol' : Tolerance} (hlen : Lenient L tol tol') {padded : Str → Prop} {R : Raw.Balance → Raw.Balance → Prop}
    (hR : ∀ b b', R b b' → LooserAssertion tol.multiplier tol'.multiplier padded b b') {s s' : Tally L} {n : Nat}
    {d d' : Raw.Directive} (h : Reasserted R d d') (hpend : ∀ a, (s.pending a).isSome → padded a)
    (hpad : ∀ p, d.variant = .pad p → padded p.acc)
    (hs : s.step option tol n d = some (s', [])) :
    s.step option tol' n d' = some (s', []) ∧ (∀ a, (s'.pending a).isSome → padded a) ∧ s.fills tol' d' = s.fills tol d ∧
      List.Forall₂ (ReassertedBooked R) (s.emits option tol n d) (s.emits option tol' n d') := by
  cases h with
  | other hb =>
    cases hv : d.variant with
    | balance b => exact absurd hv (hb b)
    | transaction t =>
      simp only [Tally.step, Tally.fills, Tally.emits, Tally.variants, hv] at hs ⊢
      cases hbk : L.book d.date t.postings tol s.held (s.method option) with
      | error e => simp [hbk, Tally.unchanged] at hs
      | ok r =>
        rw [hlen _ _ _ _ _ hbk]
        simp only [hbk] at hs ⊢
        refine ⟨hs, ?_, trivial, .cons (.same _ (by simp)) .nil⟩
        cases hw : s.wrongPosting 0 (r.interpolated.zip t.postings) with
        | some x => simp [hw] at hs
        | none =>
          simp only [hw, Option.some.injEq, Prod.mk.injEq, and_true] at hs
          subst hs
          exact hpend
    | pad p =>
      simp only [Tally.step, Tally.fills, Tally.emits, Tally.variants, hv, List.map_cons, List.map_nil] at hs ⊢
      refine ⟨hs, ?_, trivial, .cons (.same _ (by simp)) (.cons (.same _ (by simp)) .nil)⟩
      cases h1 : s.account p.acc with
      | some f => simp [h1, Tally.unchanged] at hs
      | none =>
        cases h2 : s.pending p.acc with
        | some x => simp [h1, h2] at hs
        | none =>
          simp only [h1, h2, Option.some.injEq, Prod.mk.injEq, and_true] at hs
          subst hs
          intro a ha
          by_cases e : a = p.acc
          · subst e; exact hpad p hv
          · simp only [Function.update_of_ne e] at ha
            exact hpend a ha
    | opn o =>
      simp only [Tally.step, Tally.fills, Tally.emits, Tally.variants, hv, List.map_cons, List.map_nil] at hs ⊢
      refine ⟨hs, ?_, trivial, .cons (.same _ (by simp)) .nil⟩
      cases h1 : s.standing o.acc <;> simp only [h1, Tally.unchanged, Option.some.injEq, Prod.mk.injEq, List.cons_ne_nil, and_false, and_true] at hs
      subst hs
      exact hpend
    | close c =>
      simp only [Tally.step, Tally.fills, Tally.emits, Tally.variants, hv, List.map_cons, List.map_nil] at hs ⊢
      refine ⟨hs, ?_, trivial, .cons (.same _ (by simp)) .nil⟩
      cases h1 : s.standing c.acc <;> simp only [h1, Tally.unchanged, Option.some.injEq, Prod.mk.injEq, List.cons_ne_nil, and_false, and_true] at hs
      subst hs
      exact hpend
    | _ =>
      simp only [Tally.step, Tally.fills, Tally.emits, Tally.variants, hv, List.map_cons, List.map_nil] at hs ⊢
      refine ⟨hs, ?_, trivial, .cons (.same _ (by simp)) .nil⟩
      simp only [Option.some.injEq, Prod.mk.injEq, and_true] at hs
      subst hs
      exact hpend
  | balance b b' hv hb =>
    have hemit : List.Forall₂ (ReassertedBooked R) (s.emits option tol n d)
        (s.emits option tol' n { d with variant := .balance b' }) := by
      simp only [Tally.emits, Tally.variants, hv, List.map_cons, List.map_nil]
      refine .cons ?_ .nil
      exact .balance _ b b' rfl hb
    replace hb := hR b b' hb
    cases hu : s.usage b.acc b.cur with
    | some f => simp [Tally.step, hv, hu, Tally.unchanged] at hs
    | none =>
      by_cases hp : padded b.acc
      · obtain ⟨e1, e2⟩ := hb.padded hp
        have hgt : ∀ g : Dec, g.abs.gt (toleranceDec tol'.multiplier b') = g.abs.gt (toleranceDec tol.multiplier b) := by
          intro g
          rw [Bool.eq_iff_iff, Dec.gt_iff, Dec.gt_iff, tolerance_val, tolerance_val, e2]
        have hstep : s.step option tol' n { d with variant := .balance b' } = s.step option tol n d := by
          simp only [Tally.step, hv, hb.acc, hb.cur, e1, hgt]
        refine ⟨hstep.trans hs, ?_, ?_, hemit⟩
        · simp only [Tally.step, hv, hu] at hs
          cases hg : (b.units.sub (s.total b.acc b.cur)).abs.gt (toleranceDec tol.multiplier b) <;>
            cases hpn : s.pending b.acc <;> simp only [hg, hpn] at hs
          · cases hs; exact hpend
          · simp at hs
          · simp at hs
          · split at hs
            · cases hs
              intro a ha
              by_cases e : a = b.acc
              · subst e; exact hp
              · simp only [Tally.change, Function.update_of_ne e] at ha
                exact hpend a ha
            · cases hs
        · simp only [Tally.fills, hv, hb.acc, hb.cur, e1, hgt]
      · have hnone : s.pending b.acc = none := by
          cases hx : s.pending b.acc with
          | none => rfl
          | some x => exact absurd (hpend _ (by simp [hx])) hp
        simp only [Tally.step, hv, hu, hnone] at hs
        cases hg : (b.units.sub (s.total b.acc b.cur)).abs.gt (toleranceDec tol.multiplier b) with
        | true => simp [hg] at hs
        | false =>
          simp only [hg, Option.some.injEq, Prod.mk.injEq, and_true] at hs
          subst hs
          have hg' : (b'.units.sub (s.total b.acc b.cur)).abs.gt (toleranceDec tol'.multiplier b') = false := by
            rw [← Bool.not_eq_true, Dec.gt_iff, tolerance_val] at hg ⊢
            simp only [Dec.val_abs, Dec.val_sub, gt_iff_lt, not_lt, hb.units] at hg ⊢
            exact hg.trans hb.allows
          refine ⟨?_, hpend, ?_, hemit⟩
          · simp only [Tally.step, hb.acc, hb.cur, hu, hnone, hg']
          · simp only [Tally.fills, hv, hb.acc, hnone]
            split <;> split <;> simp_all

theorem Reasserted.runAll {option : Option Booking} {tol tol' : Tolerance} (hlen : Lenient L tol tol') {padded : Str → Prop} {R : Raw.Balance → Raw.Balance → Prop}
    (hR : ∀ b b', R b b' → LooserAssertion tol.multiplier tol'.multiplier padded b b') {ds ds' : List Raw.Directive}
    (h : List.Forall₂ (Reasserted R) ds ds') (hpad : ∀ d ∈ ds, ∀ p, d.variant = .pad p → padded p.acc)
    {s t : Tally L} {n : Nat} (hpend : ∀ a, (s.pending a).isSome → padded a) (hs : Tally.run option tol n s ds = some (t, [])) :
    Tally.run option tol' n s ds' = some (t, []) ∧
      filled tol' (Tally.history option tol' n s ds') = filled tol (Tally.history option tol n s ds) ∧
      List.Forall₂ (ReassertedBooked R) (emitted option tol (Tally.history option tol n s ds))
        (emitted option tol' (Tally.history option tol' n s ds')) := by
  induction h generalizing s n with
  | nil => exact ⟨hs, rfl, .nil⟩
  | @cons d d' ds ds' hd _ ih =>
    simp only [Tally.run] at hs
    cases h1 : s.step option tol n d with
    | none => simp [h1] at hs
    | some q =>
      obtain ⟨s1, fs⟩ := q
      simp only [h1] at hs
      cases h2 : Tally.run option tol (n + 1) s1 ds with
      | none => simp [h2] at hs
      | some q =>
        obtain ⟨s2, fs2⟩ := q
        simp only [h2, Option.some.injEq, Prod.mk.injEq, List.append_eq_nil_iff] at hs
        obtain ⟨rfl, rfl, rfl⟩ := hs
        obtain ⟨g1, g2, g3, g4⟩ := Reasserted.stepOne hlen hR hd hpend (hpad d (by simp)) h1
        obtain ⟨k1, k2, k3⟩ := ih (fun e he => hpad e (List.mem_cons_of_mem _ he)) g2 h2
        refine ⟨by simp only [Tally.run, g1, k1, List.append_nil], ?_, ?_⟩
        · simp only [filled, Tally.history, g1, h1, List.filterMap_cons, g3] at k2 ⊢
          cases s.fills tol d with
          | none => exact k2
          | some f => simp only [k2]
        · simp only [emitted, Tally.history, g1, h1, List.flatMap_cons] at k3 ⊢
          exact List.rel_append g4 k3

/-- **C114** (partial: not if an assertion which a pad is for allows more): for every ledger which is accepted, if its assertions are changed so
that each is about the same amount and allows as much or more (by its own tolerance, by fewer decimals, or by the multiplier of the option), and
those on accounts for which there is a pad are as before: it is accepted, with the same warnings, and returned as before but for the assertions. -/
theorem C114_partial (L : BookLib) (hL : L.Lawful) (order : AMap Str (Account L) → AMap Str (Account L)) (hf : ∀ m, (order m).Perm m)
    (o o' : BookOptions) (hm : o'.bookingMethod = o.bookingMethod) (hlen : Lenient L o.tolerance o'.tolerance) (ds ds' : List Raw.Directive)
    (R : Raw.Balance → Raw.Balance → Prop)
    (hR : ∀ b b', R b b' → LooserAssertion o.tolerance.multiplier o'.tolerance.multiplier (Padded ds) b b') (hd : List.Forall₂ (Reasserted R) ds ds')
    (out : List Booked.Directive) (w : List IndexedReport) (h : book L order o ds = .success out w) :
    ∃ out', book L order o' ds' = .success out' w ∧
      List.Forall₂ (ReassertedBooked R) out out' := by
  obtain ⟨s, hr, -, hp, -⟩ := accepted_led hL hf h
  obtain ⟨-, hout, hw⟩ := (C82_returned L hL order hf o ds out w).1 h
  obtain ⟨g1, g2, g3⟩ := Reasserted.runAll hlen hR hd (fun d hd p hv => ⟨d, hd, p, hv, rfl⟩) (by simp [Tally.init]) hr
  refine ⟨_, (C82_returned L hL order hf o' ds' _ w).2 ⟨?_, rfl, ?_⟩, ?_⟩
  · unfold audit
    rw [hm, g1]
    simp only [Option.map_some, Option.some.injEq, Prod.mk.injEq, true_and]
    unfold Tally.unbalanced
    rw [List.filterMap_eq_nil_iff]
    intro a _
    rw [hp]; rfl
  · rw [hw]
    unfold warned
    have key : ∀ n, (ds.zipIdx n).flatMap (fun d => warns L d.2 d.1) = (ds'.zipIdx n).flatMap fun d => warns L d.2 d.1 := by
      clear hr g1 g2 g3 h hout hw
      clear hR
      induction hd with
      | nil => intro; rfl
      | cons h1 _ ih =>
        intro n
        rw [List.zipIdx_cons, List.zipIdx_cons, List.flatMap_cons, List.flatMap_cons, ih]
        congr 1
        cases h1 with
        | other => rfl
        | balance b b' hv _ => simp [warns, hv]
    exact key 0
  · rw [hout, hm]
    unfold returned returnedOf
    unfold filled at g2
    unfold emitted at g3
    rw [g2]
    refine List.forall₂_map_left_iff.2 (List.forall₂_map_right_iff.2 ?_)
    refine g3.imp fun e e' he => ?_
    cases he with
    | same hb =>
      refine .same _ fun b hb' => ?_
      unfold fillIn at hb'
      split at hb'
      · simp at hb'
      · exact hb b hb'
    | balance b b' hv hb =>
      have h1 : ∀ fs, fillIn fs e = e := by intro fs; simp [fillIn, hv]
      have h2 : ∀ fs, fillIn fs { e with variant := .balance { raw := b' } } = { e with variant := .balance { raw := b' } } := by
        intro fs; simp [fillIn]
      rw [h1, h2]
      exact .balance _ b b' hv hb

/-- C114 for the option (partial: only without pads): with a greater multiplier everything is returned as before. -/
theorem C114_option_partial (L : BookLib) (hL : L.Lawful) (order : AMap Str (Account L) → AMap Str (Account L)) (hf : ∀ m, (order m).Perm m)
    (o o' : BookOptions) (hm : o'.bookingMethod = o.bookingMethod) (hlen : Lenient L o.tolerance o'.tolerance)
    (hmul : (o.tolerance.multiplier.map Dec.val).getD (1 / 2) ≤ (o'.tolerance.multiplier.map Dec.val).getD (1 / 2)) (ds : List Raw.Directive)
    (hp : ∀ d ∈ ds, ∀ p, d.variant ≠ .pad p) (out : List Booked.Directive) (w : List IndexedReport) (h : book L order o ds = .success out w) :
    book L order o' ds = .success out w := by
  have hR : ∀ b b', b' = b → LooserAssertion o.tolerance.multiplier o'.tolerance.multiplier (Padded ds) b b' := by
    intro b b' e
    rw [e]
    refine ⟨rfl, rfl, rfl, ?_, ?_⟩
    · unfold tolerance
      cases b.tolerance with
      | some t => exact le_refl _
      | none =>
        simp only
        split
        · exact le_refl _
        · have : (0 : ℚ) ≤ 2 / 10 ^ b.units.s := by positivity
          have := mul_le_mul_of_nonneg_left hmul this
          ring_nf at this ⊢
          linarith
    · rintro ⟨d, hd, p, hv, -⟩
      exact absurd hv (hp d hd p)
  have hd : List.Forall₂ (Reasserted fun b b' => b' = b) ds ds := by
    rw [List.forall₂_same]
    intro d _
    cases hv : d.variant with
    | balance b =>
      have := Reasserted.balance (R := fun b b' => b' = b) d b b hv rfl
      rwa [show ({ d with variant := .balance b } : Raw.Directive) = d by rw [← hv]] at this
    | _ => exact .other _ (by simp [hv])
  obtain ⟨out', h', hrel⟩ := C114_partial L hL order hf o o' hm hlen ds ds _ hR hd out w h
  have : out' = out := by
    clear h h'
    induction hrel with
    | nil => rfl
    | cons h1 _ ih =>
      rw [ih]
      congr 1
      cases h1 with
      | same => rfl
      | balance b b' hv hb => rw [hb, ← hv]
  rw [h', this]

namespace Ex

open Toy

/-- A pad for which there is just enough to do. -/
def tightPad : List Raw.Directive := [mkOpen 1 equity, mkOpen 1 bank, mkPad 2 bank equity, mkBal 3 bank ⟨10, 1⟩ nzd]

/-- Two assertions, of which the first is off by one half and allows a bit less. -/
def halfOff (t : Dec) : List Raw.Directive :=
  [mkOpen 1 equity, mkOpen 1 bank, mkTxn 2 [(bank, ⟨1005, 1⟩, nzd), (equity, ⟨-1005, 1⟩, nzd)], mkBal 3 bank ⟨1000, 1⟩ nzd (some t),
    mkBal 4 bank ⟨1000, 1⟩ nzd]

end Ex

/-- C114 is false with pads: a greater multiplier makes a ledger unacceptable, because the pad is not needed any more. -/
theorem C114_pads : ∃ out, Toy.run Ex.tightPad = .success out [] ∧
    Toy.run Ex.tightPad { tolerance := { multiplier := some ⟨5, 0⟩ } } = .failure [{ idx := { directive := 2 }, reason := .unusedNoAdjustment }] := by
  have e : ∀ x : Outcome, (∃ out, x = .success out []) ↔ x = .success (match x with | .success out _ => out | _ => []) [] := by
    intro x
    constructor
    · rintro ⟨out, rfl⟩; rfl
    · exact fun h => ⟨_, h⟩
  exact ⟨_, (e (Toy.run Ex.tightPad)).1 ⟨_, rfl⟩, rfl⟩

/-- C114 is about ledgers which are accepted. Else there may be a fault where there was none: an assertion which fails counts for those which
follow as if it held. -/
theorem C114_faults : Ex.placed (Toy.run (Ex.halfOff ⟨4, 1⟩)) = [(3, .accumulated ⟨1005, 1⟩ ⟨-5, 1⟩ Ex.nzd)] ∧
    Ex.placed (Toy.run (Ex.halfOff ⟨6, 1⟩)) = [(4, .accumulated ⟨1000, 1⟩ ⟨-5, 1⟩ Ex.nzd)] := by
  constructor <;> decide +kernel

namespace Ex

open Toy

/-- Assertions on two accounts, of which one is padded. -/
def someAssertions (b : Raw.Balance) : List Raw.Directive :=
  [mkOpen 1 equity, mkOpen 1 bank, mkOpen 1 food, mkPad 2 bank equity, mkBal 3 bank ⟨10, 1⟩ nzd, mkTxn 4 [(food, ⟨3, 1⟩, nzd), (bank, ⟨-3, 1⟩, nzd)],
    { date := day 5, variant := .balance b }]

/-- The toy library does not look at tolerances. -/
theorem lib_lenient (tol tol' : Tolerance) : Lenient lib tol tol' := fun _ _ _ _ _ h => h

/-- An assertion on the other account may be written with fewer decimals, and allow more. -/
example : ∃ out out', run (someAssertions { acc := food, units := ⟨30, 2⟩, cur := nzd }) = .success out [] ∧
    run (someAssertions { acc := food, units := ⟨3, 1⟩, cur := nzd, tolerance := some ⟨1, 0⟩ }) = .success out' [] := by
  have e : ∀ x : Outcome, (∃ out, x = .success out []) ↔ x = .success (match x with | .success out _ => out | _ => []) [] := by
    intro x
    constructor
    · rintro ⟨out, rfl⟩; rfl
    · exact fun h => ⟨_, h⟩
  have h := (e (run (someAssertions { acc := food, units := ⟨30, 2⟩, cur := nzd }))).1 ⟨_, rfl⟩
  obtain ⟨out', h', -⟩ := C114_partial lib lib_lawful id (fun _ => .refl _) {} {} rfl (lib_lenient _ _) _
    (someAssertions { acc := food, units := ⟨3, 1⟩, cur := nzd, tolerance := some ⟨1, 0⟩ })
    (fun b b' => b' = b ∨ (b = { acc := food, units := ⟨30, 2⟩, cur := nzd } ∧ b' = { acc := food, units := ⟨3, 1⟩, cur := nzd, tolerance := some ⟨1, 0⟩ }))
    (by
      rintro b b' (rfl | ⟨rfl, rfl⟩)
      · exact ⟨rfl, rfl, rfl, le_refl _, fun _ => ⟨rfl, rfl⟩⟩
      · refine ⟨rfl, rfl, by norm_num [Dec.val], by norm_num [tolerance, Dec.val], ?_⟩
        rintro ⟨d, hd, p, hv, hp⟩
        exfalso
        simp only [List.mem_cons, List.not_mem_nil, or_false] at hd
        rcases hd with rfl | rfl | rfl | rfl | rfl | rfl | rfl <;> cases hv
        revert hp
        decide)
    (.cons (.other _ (by simp [mkOpen])) (.cons (.other _ (by simp [mkOpen])) (.cons (.other _ (by simp [mkOpen])) (.cons (.other _ (by simp [mkPad]))
      (.cons (.balance _ _ _ rfl (.inl rfl)) (.cons (.other _ (by simp [mkTxn])) (.cons (.balance _ _ _ rfl (.inr ⟨rfl, rfl⟩)) .nil)))))))
    _ _ h
  exact ⟨_, _, h, h'⟩

end Ex

end Limabean
