/-
C116: the units in which a ledger is counted do not matter.
-/
import Verif.Proofs.RescalingLemmas
import Verif.Props.C83
import Verif.Props.C115

namespace Limabean

open Spec

variable {f : Str → ℚ}

theorem scaled_of_announces {x y : IndexedReport} {a b : Finding} (hx : Announces x a) (hy : Announces y b) (h : ScaledFinding f a b) :
    ScaledReport f x y := by
  obtain ⟨p1, s1⟩ := hx
  obtain ⟨p2, s2⟩ := hy
  obtain ⟨d, p, fl⟩ := h
  have key : y.related = x.related ∧ ScaledReason f x.reason y.reason := by
    generalize x.related = r1, x.reason = q1 at s1
    generalize y.related = r2, y.reason = q2 at s2
    generalize a.fault = fa at *
    generalize b.fault = fb at *
    cases fl with
    | same hg =>
      cases s1 <;> cases s2 <;> first
        | exact absurd rfl (hg _ _)
        | exact ⟨rfl, .same (by simp)⟩
    | refused he => cases he <;> cases s1 <;> cases s2 <;> first
        | exact ⟨rfl, .library _ _⟩
        | exact ⟨rfl, .libraryPosting _ _ _⟩
    | gap cur hu => cases s1; cases s2; exact ⟨rfl, .accumulated _ _ _ hu⟩
  exact ⟨by rw [p1, p2, d, p], key.1, key.2⟩

theorem scaled_of_all {xs ys : List IndexedReport} {as bs : List Finding} (hx : List.Forall₂ Announces xs as)
    (hy : List.Forall₂ Announces ys bs) (h : List.Forall₂ (ScaledFinding f) as bs) : List.Forall₂ (ScaledReport f) xs ys := by
  induction h generalizing xs ys with
  | nil => cases hx; cases hy; exact .nil
  | cons h _ ih =>
    cases hx with
    | cons hx hxs =>
      cases hy with
      | cons hy hys => exact .cons (scaled_of_announces hx hy h) (ih hxs hys)

/-- **C116**: count a ledger in other units: `f c` of the new for one of the old unit of each currency `c`, which may be negative, but not
zero. Amounts, tolerances, costs and prices change accordingly. Then the same happens: booking crashes for both, or the same directives are
returned with amounts in the other units and the same warnings, or there are the same reports, with amounts in the other units. -/
theorem C116 (L : BookLib) (hL : L.Lawful) (order : AMap Str (Account L) → AMap Str (Account L)) (hf : ∀ m, (order m).Perm m)
    (hk : ∀ c, f c ≠ 0) (o o' : BookOptions) (hm : o'.bookingMethod = o.bookingMethod) (alike : L.Pos → L.Pos → Prop)
    (hB : CountsWith f L alike) (ds ds' : List Raw.Directive) (hd : List.Forall₂ (Rescaled f L o.tolerance o'.tolerance alike) ds ds') :
    ScaledOutcome f (book L order o ds) (book L order o' ds') := by
  rcases scaled_audit hk hB o.bookingMethod hd with ⟨a1, a2⟩ | ⟨fs, fs', ps, a1, a2, a3, a4⟩
  · have h1 := C75_reports L hL order hf o ds
    have h2 := C75_reports L hL order hf o' ds'
    rw [a1] at h1
    rw [hm, a2] at h2
    rw [h1, h2]
    exact .panic
  · rw [← hm] at a2
    by_cases hne : fs = [] ∧ ps = []
    · obtain ⟨rfl, rfl⟩ := hne
      cases a3
      rw [(C82_returned L hL order hf o ds _ _).2 ⟨a1, rfl, rfl⟩, (C82_returned L hL order hf o' ds' _ _).2 ⟨a2, rfl, rfl⟩, scaled_warned hd, hm]
      exact .success (scaled_returned hk hB _ hd)
    · have hne' : ¬ (fs' = [] ∧ ps = []) := by
        rintro ⟨rfl, rfl⟩
        cases a3
        exact hne ⟨rfl, rfl⟩
      obtain ⟨es1, h1, xs, hx1, hx2⟩ := told_of_failure hL hf a1 hne
      obtain ⟨es2, h2, ys, hy1, hy2⟩ := told_of_failure hL hf a2 hne'
      rw [h1, h2]
      exact .failure hx1 hy1 (scaled_of_all hx2 hy2 (List.rel_append a3 a4))

/-! ### The contract can be met -/

namespace Toy

/-- The same holdings in other units. -/
def ScaledHeld (f : Str → ℚ) (p q : Toy.Pos) : Prop := List.Forall₂ (fun x y => y.1 = x.1 ∧ ScaledAmount (f x.1) x.2 y.2) p q

theorem units_scaled {p q : Toy.Pos} (h : ScaledHeld f p q) (c : Str) : ScaledAmount (f c) (Toy.units p c) (Toy.units q c) := by
  unfold Toy.units
  induction h with
  | nil => simp [ScaledAmount, AMap.get]
  | @cons x y _ _ hx _ ih =>
    simp only [AMap.get, hx.1]
    by_cases e : x.1 = c
    · rw [if_pos e, if_pos e, ← e]; exact hx.2
    · rw [if_neg e, if_neg e]; exact ih

theorem set_scaled {p q : Toy.Pos} (h : ScaledHeld f p q) (c : Str) {u v : Dec} (hu : ScaledAmount (f c) u v) :
    ScaledHeld f (p.set c u) (q.set c v) := by
  induction h with
  | nil => exact .cons ⟨rfl, hu⟩ .nil
  | @cons x y _ _ hx hs ih =>
    simp only [AMap.set, hx.1]
    by_cases e : x.1 = c
    · rw [if_pos e, if_pos e]; exact .cons ⟨rfl, hu⟩ hs
    · rw [if_neg e, if_neg e]; exact .cons ⟨rfl, hx.2⟩ ih

theorem accumulate_scaled {p q : Toy.Pos} (h : ScaledHeld f p q) {u v : Dec} {c : Str} (hu : ScaledAmount (f c) u v) (b : Booking) :
    ScaledHeld f (Toy.accumulate p u c b) (Toy.accumulate q v c b) := by
  refine set_scaled h c ?_
  have := units_scaled h c
  unfold ScaledAmount at *
  rw [Dec.val_add, Dec.val_add, this, hu, mul_add]

theorem lib_counts (f : Str → ℚ) : CountsWith f Toy.lib (ScaledHeld f) where
  empty := .nil
  units _ _ c h := units_scaled h c
  accumulate _ _ _ _ _ h hu := accumulate_scaled h hu .strict

theorem addPosting_scaled {p q : Toy.Pos} (h : ScaledHeld f p q) (b : Booking) {i i' : Interpolated} (hi : ScaledInterpolated f i i') :
    ScaledHeld f (Toy.addPosting b p i) (Toy.addPosting b q i') := by
  obtain ⟨u, c, cost, price⟩ := i
  obtain ⟨u', c', cost', price'⟩ := i'
  obtain ⟨hu, hc, hcost, -⟩ := hi
  simp only at hu hc hcost
  subst hc
  cases hcost with
  | none => exact accumulate_scaled h hu b
  | some hl =>
    simp only [Toy.addPosting]
    induction hl generalizing p q with
    | nil => exact h
    | cons hx _ ih => exact ih (accumulate_scaled h hx.2.1 b)

theorem applyAll_scaled (b : Booking) (a : Str) {ps ps' : List Raw.PostingSpec} {is is' : List Interpolated} {p q : Toy.Pos}
    (h : ScaledHeld f p q) (hp : List.Forall₂ EqualLine ps ps') (hi : List.Forall₂ (ScaledInterpolated f) is is') :
    ScaledHeld f (Toy.applyAll b a p ps is) (Toy.applyAll b a q ps' is') := by
  induction hp generalizing p q is is' with
  | nil => exact h
  | cons hx _ ih =>
    cases hi with
    | nil => exact h
    | cons hi his =>
      simp only [Toy.applyAll, hx.acc]
      refine ih ?_ his
      split
      · exact addPosting_scaled h b hi
      · exact h

/-- The toy library books in the other units whatever it interpolates so. -/
theorem answer_scaled (date : Date) (tol tol' : Tolerance) {ps ps' : List Raw.PostingSpec} (hl : List.Forall₂ EqualLine ps ps')
    (hc : Toy.complete ps' = Toy.complete ps)
    (hi : List.Forall₂ (ScaledInterpolated f) (ps.map (Toy.interpolate date (Toy.residual ps))) (ps'.map (Toy.interpolate date (Toy.residual ps'))))
    (held held' : Str → Option Toy.Pos) (method : Str → Booking) (h : ∀ a, Option.Rel (ScaledHeld f) (held a) (held' a)) :
    ScaledAnswer f (L := Toy.lib) (ScaledHeld f) held held' (Toy.bookAll date ps tol held method) (Toy.bookAll date ps' tol' held' method) := by
  unfold Toy.bookAll
  rw [hc]
  cases Toy.complete ps with
  | false => exact .refused (.transaction _ _)
  | true =>
    simp only [if_true]
    refine .booked hi ?_
    have hm : (ps'.map fun p => p.acc) = ps.map fun p => p.acc := by
      clear hc hi
      induction hl with
      | nil => rfl
      | cons hx _ ih => simp only [List.map_cons, hx.acc, ih]
    rw [hm]
    refine foldl_relabelled (R := ScaledHeld f) ?_ (.refl _) ?_ h
    · rw [List.map_map]
      simpa [Function.comp_def] using List.nodup_dedup _
    · rw [List.forall₂_map_left_iff, List.forall₂_map_right_iff]
      refine List.forall₂_same.2 fun a _ => ⟨rfl, applyAll_scaled _ _ ?_ hl hi⟩
      have := h a
      generalize held a = x at this
      generalize held' a = y at this
      cases this with
      | none => exact .nil
      | some h => exact h

end Toy

namespace Ex

open Toy

/-- Dollars are counted in cents, everything else as before. -/
def inCents (c : Str) : ℚ := if c = usd then 100 else 1

/-- Three shares are bought for dollars, and then two dollars are asserted. -/
def dollarPostings : List Raw.PostingSpec :=
  [{ acc := bank, units := some ⟨3, 0⟩, cur := some nzd, costSpec := some { perUnit := some ⟨25, 1⟩, cur := some usd } },
   { acc := equity, units := some ⟨-75, 1⟩, cur := some usd }]

/-- The same in cents. -/
def centPostings : List Raw.PostingSpec :=
  [{ acc := bank, units := some ⟨3, 0⟩, cur := some nzd, costSpec := some { perUnit := some ⟨250, 0⟩, cur := some usd } },
   { acc := equity, units := some ⟨-750, 0⟩, cur := some usd }]

/-- A pad, a purchase, and an assertion which fails. -/
def dollars : List Raw.Directive :=
  [mkOpen 1 bank, mkOpen 1 equity, mkPad 2 bank equity, mkBal 3 bank ⟨25, 1⟩ usd,
   { date := day 4, variant := .transaction { flag := str% "*", postings := dollarPostings } }, mkBal 5 bank ⟨27, 1⟩ usd]

/-- The same in cents. -/
def cents : List Raw.Directive :=
  [mkOpen 1 bank, mkOpen 1 equity, mkPad 2 bank equity,
   { date := day 3, variant := .balance { acc := bank, units := ⟨250, 0⟩, cur := usd, tolerance := some ⟨10, 0⟩ } },
   { date := day 4, variant := .transaction { flag := str% "*", postings := centPostings } },
   { date := day 5, variant := .balance { acc := bank, units := ⟨270, 0⟩, cur := usd, tolerance := some ⟨10, 0⟩ } }]

theorem cents_line : List.Forall₂ EqualLine dollarPostings centPostings :=
  .cons ⟨rfl, rfl, rfl, rfl, rfl⟩ (.cons ⟨rfl, rfl, rfl, rfl, rfl⟩ .nil)

theorem inCents_usd : inCents usd = 100 := by simp [inCents]

theorem inCents_nzd : inCents nzd = 1 := by
  unfold inCents
  rw [if_neg (by decide)]

theorem cents_interpolated (date : Date) : List.Forall₂ (ScaledInterpolated inCents) (dollarPostings.map (Toy.interpolate date (Toy.residual dollarPostings)))
    (centPostings.map (Toy.interpolate date (Toy.residual centPostings))) := by
  simp only [dollarPostings, centPostings, List.map_cons, List.map_nil, Toy.interpolate, Option.getD_some, Option.map_none, Option.bind_none,
    Option.map_some, Toy.lots]
  refine .cons ⟨?_, rfl, .some (.cons ⟨rfl, ?_, ?_, ?_⟩ .nil), .none⟩ (.cons ⟨?_, rfl, .none, .none⟩ .nil)
  all_goals simp only [ScaledAmount, inCents_usd, inCents_nzd, Dec.val_mul]
  all_goals norm_num [Dec.val]

theorem cents_rescaled : List.Forall₂ (Rescaled inCents Toy.lib {} {} (ScaledHeld inCents)) dollars cents := by
  have hn : ∀ d : Raw.Directive, NoAmount d → Rescaled inCents Toy.lib {} {} (ScaledHeld inCents) d { d with span := d.span } := fun d => .same d.span
  have h1 : ∀ (x : Nat) (u v : Dec), ScaledAmount 100 u v → tolerance none { acc := bank, units := v, cur := usd, tolerance := some ⟨10, 0⟩ } =
      100 * tolerance none { acc := bank, units := u, cur := usd } →
      Rescaled inCents Toy.lib {} {} (ScaledHeld inCents) (mkBal x bank u usd)
        { date := day x, variant := .balance { acc := bank, units := v, cur := usd, tolerance := some ⟨10, 0⟩ } } := by
    intro x u v hu ht
    refine Rescaled.balance (d := mkBal x bank u usd) none rfl rfl rfl ?_ ?_
    · rw [inCents_usd]; exact hu
    · rw [inCents_usd, abs_of_pos (by norm_num)]; exact ht
  refine .cons (hn _ ⟨by simp [mkOpen], by simp [mkOpen], by simp [mkOpen]⟩) (.cons (hn _ ⟨by simp [mkOpen], by simp [mkOpen], by simp [mkOpen]⟩)
    (.cons (hn _ ⟨by simp [mkPad], by simp [mkPad], by simp [mkPad]⟩) (.cons (h1 _ _ _ ?_ ?_) (.cons ?_ (.cons (h1 _ _ _ ?_ ?_) .nil)))))
  · norm_num [ScaledAmount, Dec.val]
  · norm_num [tolerance, Dec.val]
  · exact Rescaled.transaction (d := { date := day 4, variant := .transaction { flag := str% "*", postings := dollarPostings } })
      (ps := centPostings) none rfl cents_line fun held held' method h => answer_scaled _ {} {} cents_line rfl (cents_interpolated _) held held' method h
  · norm_num [ScaledAmount, Dec.val]
  · norm_num [tolerance, Dec.val]

end Ex

/-- Non-vacuity of `C116`: the ledger is refused because of the second assertion, and without it the pad is filled. The reported total is
of dollars and shares together (C21), so that it is neither the same nor a hundred times as much. -/
example : ((Toy.run Ex.dollars).reports.map fun r => r.reason) = [.accumulated ⟨55, 1⟩ ⟨2, 1⟩ Ex.usd] ∧
    ((Toy.run Ex.cents).reports.map fun r => r.reason) = [.accumulated ⟨253, 0⟩ ⟨20, 0⟩ Ex.usd] ∧
    ((Toy.postingsOf (Toy.run (Ex.dollars.take 5))).map fun x => x.2.2) = [(⟨25, 1⟩, Ex.usd), (⟨-25, 1⟩, Ex.usd), (⟨3, 0⟩, Ex.nzd), (⟨-75, 1⟩, Ex.usd)] ∧
    ((Toy.postingsOf (Toy.run (Ex.cents.take 5))).map fun x => x.2.2) = [(⟨250, 0⟩, Ex.usd), (⟨-250, 0⟩, Ex.usd), (⟨3, 0⟩, Ex.nzd), (⟨-750, 0⟩, Ex.usd)] := by
  decide +kernel

end Limabean
