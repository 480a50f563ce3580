/-
C115: how a transaction is written matters only by what the booking library makes of it; and how many decimals are written in an assertion,
only by its tolerance.
-/
import Verif.Proofs.RewordingLemmas
import Verif.Props.C83

namespace Limabean

open Spec

theorem even_of_announces {x y : IndexedReport} {a b : Finding} (hx : Announces x a) (hy : Announces y b) (h : EvenFinding a b) :
    EqualReport x y := by
  obtain ⟨p1, s1⟩ := hx
  obtain ⟨p2, s2⟩ := hy
  obtain ⟨d, p, fl⟩ := h
  have key : y.related = x.related ∧ EqualReason x.reason y.reason := by
    generalize x.related = r1, x.reason = q1 at s1
    generalize y.related = r2, y.reason = q2 at s2
    generalize a.fault = fa at *
    generalize b.fault = fb at *
    cases fl with
    | same =>
      cases s1 <;> cases s2 <;> first
        | exact ⟨rfl, .same _⟩
        | exact ⟨rfl, .accumulated _ _ _ rfl⟩
    | refused he => cases he <;> cases s1 <;> cases s2 <;> first
        | exact ⟨rfl, .library _ _⟩
        | exact ⟨rfl, .libraryPosting _ _ _⟩
    | gap cur hu => cases s1; cases s2; exact ⟨rfl, .accumulated _ _ _ hu⟩
  exact ⟨by rw [p1, p2, d, p], key.1, key.2⟩

theorem even_of_all {xs ys : List IndexedReport} {as bs : List Finding} (hx : List.Forall₂ Announces xs as)
    (hy : List.Forall₂ Announces ys bs) (h : List.Forall₂ EvenFinding as bs) : List.Forall₂ EqualReport xs ys := by
  induction h generalizing xs ys with
  | nil => cases hx; cases hy; exact .nil
  | cons h _ ih =>
    cases hx with
    | cons hx hxs =>
      cases hy with
      | cons hy hys => exact .cons (even_of_announces hx hy h) (ih hxs hys)

/-- **C115**: take a ledger and write some of its transactions in another way which the booking library books alike, and some of its
assertions with more or fewer decimals but the same tolerance. Then the same happens: booking crashes for both, or the same directives are
returned with the same warnings, or the same reports; up to decimals and the text of the library. -/
theorem C115 (L : BookLib) (hL : L.Lawful) (order : AMap Str (Account L) → AMap Str (Account L)) (hf : ∀ m, (order m).Perm m)
    (o : BookOptions) (alike : L.Pos → L.Pos → Prop) (hB : BlindToDecimals L o.tolerance alike) (ds ds' : List Raw.Directive)
    (hd : List.Forall₂ (Rewritten L o.tolerance alike) ds ds') : EqualOutcome (book L order o ds) (book L order o ds') := by
  rcases even_audit hB o.bookingMethod hd with ⟨a1, a2⟩ | ⟨fs, fs', ps, a1, a2, a3⟩
  · have h1 := C75_reports L hL order hf o ds
    have h2 := C75_reports L hL order hf o ds'
    rw [a1] at h1
    rw [a2] at h2
    rw [h1, h2]
    exact .panic
  · by_cases hne : fs = [] ∧ ps = []
    · obtain ⟨rfl, rfl⟩ := hne
      cases a3
      rw [(C82_returned L hL order hf o ds _ _).2 ⟨a1, rfl, rfl⟩, (C82_returned L hL order hf o ds' _ _).2 ⟨a2, rfl, rfl⟩, even_warned hd]
      exact .success (even_returned hB _ hd)
    · have hne' : ¬ (fs' = [] ∧ ps = []) := by
        rintro ⟨rfl, rfl⟩
        cases a3
        exact hne ⟨rfl, rfl⟩
      obtain ⟨es1, h1, xs, hx1, hx2⟩ := told_of_failure hL hf a1 hne
      obtain ⟨es2, h2, ys, hy1, hy2⟩ := told_of_failure hL hf a2 hne'
      rw [h1, h2]
      exact .failure hx1 hy1 (even_of_all hx2 hy2 (List.rel_append a3 (found_same ps)))

/-! ### The contract can be met -/

namespace Toy

/-- The same holdings, up to decimals. -/
def EvenHeld (p q : Toy.Pos) : Prop := List.Forall₂ (fun x y => y.1 = x.1 ∧ EqualAmount x.2 y.2) p q

theorem units_even {p q : Toy.Pos} (h : EvenHeld p q) (c : Str) : EqualAmount (Toy.units p c) (Toy.units q c) := by
  unfold Toy.units
  induction h with
  | nil => rfl
  | @cons x y _ _ hx _ ih =>
    simp only [AMap.get, hx.1]
    split
    · exact hx.2
    · exact ih

theorem set_even {p q : Toy.Pos} (h : EvenHeld p q) (c : Str) {u v : Dec} (hu : EqualAmount u v) : EvenHeld (p.set c u) (q.set c v) := by
  induction h with
  | nil => exact .cons ⟨rfl, hu⟩ .nil
  | @cons x y _ _ hx hs ih =>
    simp only [AMap.set, hx.1]
    split
    · exact .cons ⟨rfl, hu⟩ hs
    · exact .cons ⟨rfl, hx.2⟩ ih

theorem accumulate_even {p q : Toy.Pos} (h : EvenHeld p q) {u v : Dec} (hu : EqualAmount u v) (c : Str) (b : Booking) :
    EvenHeld (Toy.accumulate p u c b) (Toy.accumulate q v c b) := by
  refine set_even h c ?_
  have := units_even h c
  unfold EqualAmount at *
  rw [Dec.val_add, Dec.val_add, this, hu]

theorem addPosting_even {p q : Toy.Pos} (h : EvenHeld p q) (b : Booking) {i i' : Interpolated} (hi : EqualInterpolated i i') :
    EvenHeld (Toy.addPosting b p i) (Toy.addPosting b q i') := by
  obtain ⟨u, c, cost, price⟩ := i
  obtain ⟨u', c', cost', price'⟩ := i'
  obtain ⟨hu, hc, hcost, -⟩ := hi
  simp only at hu hc hcost
  subst hc
  cases hcost with
  | none => exact accumulate_even h hu _ b
  | some hl =>
    simp only [Toy.addPosting]
    induction hl generalizing p q with
    | nil => exact h
    | cons hx _ ih => exact ih (accumulate_even h hx.2.1 _ b)

theorem applyAll_even (b : Booking) (a : Str) {ps ps' : List Raw.PostingSpec} {is is' : List Interpolated} {p q : Toy.Pos} (h : EvenHeld p q)
    (hp : List.Forall₂ EqualLine ps ps') (hi : List.Forall₂ EqualInterpolated is is') :
    EvenHeld (Toy.applyAll b a p ps is) (Toy.applyAll b a q ps' is') := by
  induction hp generalizing p q is is' with
  | nil => exact h
  | cons hx _ ih =>
    cases hi with
    | nil => exact h
    | cons hi his =>
      simp only [Toy.applyAll, hx.acc]
      refine ih ?_ his
      split
      · exact addPosting_even h b hi
      · exact h

theorem equalInterpolated_refl (i : Interpolated) : EqualInterpolated i i where
  units := rfl
  currency := rfl
  cost := by
    cases i.cost with
    | none => exact .none
    | some l => exact .some (List.forall₂_same.2 fun _ _ => ⟨rfl, rfl, rfl, rfl⟩)
  price := by
    cases i.price with
    | none => exact .none
    | some p => exact .some (equalPrice_refl p)

/-- The toy library books alike whatever it interpolates alike. -/
theorem answer_even (date : Date) (tol : Tolerance) {ps ps' : List Raw.PostingSpec} (hl : List.Forall₂ EqualLine ps ps')
    (hc : Toy.complete ps' = Toy.complete ps)
    (hi : List.Forall₂ EqualInterpolated (ps.map (Toy.interpolate date (Toy.residual ps))) (ps'.map (Toy.interpolate date (Toy.residual ps'))))
    (held held' : Str → Option Toy.Pos) (method : Str → Booking) (h : ∀ a, Option.Rel EvenHeld (held a) (held' a)) :
    EqualAnswer (L := Toy.lib) EvenHeld held held' (Toy.bookAll date ps tol held method) (Toy.bookAll date ps' tol held' method) := by
  unfold Toy.bookAll
  rw [hc]
  cases Toy.complete ps with
  | false => exact .refused (.transaction _ _)
  | true =>
    simp only [if_true]
    refine .booked hi ?_
    have hm : (ps'.map fun p => p.acc) = ps.map fun p => p.acc := by
      clear hc hi
      induction hl with
      | nil => rfl
      | cons hx _ ih => simp only [List.map_cons, hx.acc, ih]
    rw [hm]
    refine foldl_relabelled (R := EvenHeld) ?_ (.refl _) ?_ h
    · rw [List.map_map]
      simpa [Function.comp_def] using List.nodup_dedup _
    · rw [List.forall₂_map_left_iff, List.forall₂_map_right_iff]
      refine List.forall₂_same.2 fun a _ => ⟨rfl, applyAll_even _ _ ?_ hl hi⟩
      have := h a
      generalize held a = x at this
      generalize held' a = y at this
      cases this with
      | none => exact .nil
      | some h => exact h

theorem lib_decimals (tol : Tolerance) : BlindToDecimals Toy.lib tol EvenHeld where
  empty := .nil
  units _ _ c h := units_even h c
  accumulate _ _ _ _ c h hu := accumulate_even h hu c .strict
  book date ps held held' method h :=
    answer_even date tol (equalLine_refl ps) rfl (List.forall₂_same.2 fun _ _ => equalInterpolated_refl _) held held' method h

end Toy

namespace Ex

open Toy

/-- A purchase in which one amount is left to be found. -/
def briefly : List Raw.PostingSpec := [{ acc := bank, units := some ⟨5, 0⟩, cur := some usd }, { acc := equity }]

/-- The same with that amount written, and with more decimals in the other. -/
def atLength : List Raw.PostingSpec :=
  [{ acc := bank, units := some ⟨500, 2⟩, cur := some usd }, { acc := equity, units := some ⟨-5, 0⟩, cur := some usd }]

/-- A ledger with the purchase and an assertion. -/
def brief : List Raw.Directive :=
  [mkOpen 1 bank, mkOpen 1 equity, { date := day 2, variant := .transaction { flag := str% "*", postings := briefly } }, mkBal 3 bank ⟨50, 1⟩ usd]

/-- The same, with fewer decimals in the assertion, where the tolerance is written instead. -/
def wordy : List Raw.Directive :=
  [mkOpen 1 bank, mkOpen 1 equity, { date := day 2, variant := .transaction { flag := str% "*", postings := atLength } },
   { date := day 3, variant := .balance { acc := bank, units := ⟨5, 0⟩, cur := usd, tolerance := some ⟨10, 2⟩ } }]

theorem atLength_line : List.Forall₂ EqualLine briefly atLength :=
  .cons ⟨rfl, rfl, rfl, rfl, rfl⟩ (.cons ⟨rfl, rfl, rfl, rfl, rfl⟩ .nil)

theorem atLength_even (date : Date) : List.Forall₂ EqualInterpolated (briefly.map (Toy.interpolate date (Toy.residual briefly)))
    (atLength.map (Toy.interpolate date (Toy.residual atLength))) := by
  have h1 : EqualAmount ⟨5, 0⟩ ⟨500, 2⟩ := by norm_num [EqualAmount, Dec.val]
  have h2 : Toy.residual briefly = (⟨-5, 0⟩, usd) := by decide +kernel
  rw [h2]
  simp only [briefly, atLength, List.map_cons, List.map_nil, Toy.interpolate, Option.getD_some, Option.getD_none, Option.map_none, Option.bind_none]
  exact .cons ⟨h1, rfl, .none, .none⟩ (.cons ⟨rfl, rfl, .none, .none⟩ .nil)

theorem wordy_rewritten : List.Forall₂ (Rewritten Toy.lib {} EvenHeld) brief wordy :=
  .cons (.same _ _) (.cons (.same _ _) (.cons
    (Rewritten.transaction (d := { date := day 2, variant := .transaction { flag := str% "*", postings := briefly } }) (ps := atLength) none rfl
      atLength_line fun held held' method h => answer_even _ {} atLength_line rfl (atLength_even _) held held' method h) (.cons
    (Rewritten.balance (d := mkBal 3 bank ⟨50, 1⟩ usd) none rfl rfl rfl (by norm_num [EqualAmount, Dec.val]) (by norm_num [tolerance, Dec.val]))
    .nil)))

/-- An account of which so much is asserted. -/
def assertedAs (units : Dec) : List Raw.Directive :=
  [mkOpen 1 bank, mkOpen 1 equity, mkTxn 2 [(bank, ⟨504, 2⟩, usd), (equity, ⟨-504, 2⟩, usd)], mkBal 3 bank units usd]

end Ex

/-- The tolerances have to be the same: an assertion of 5.0 holds where one of 5.00 does not. -/
theorem C115_tolerance : EqualAmount ⟨50, 1⟩ ⟨500, 2⟩ ∧ (Toy.run (Ex.assertedAs ⟨50, 1⟩)).reports = [] ∧
    ((Toy.run (Ex.assertedAs ⟨500, 2⟩)).reports.map fun r => r.reason) = [.accumulated ⟨504, 2⟩ ⟨-4, 2⟩ Ex.usd] :=
  ⟨by norm_num [EqualAmount, Dec.val], by decide +kernel, by decide +kernel⟩

/-- Non-vacuity of `C115`: the ledger is accepted, in both ways. -/
example : (Toy.run Ex.brief).reports = [] ∧ (Toy.run Ex.wordy).reports = [] ∧ Ex.brief ≠ Ex.wordy ∧
    ((Toy.postingsOf (Toy.run Ex.brief)).map fun x => x.2.2) = [(⟨5, 0⟩, Ex.usd), (⟨-5, 0⟩, Ex.usd)] ∧
    ((Toy.postingsOf (Toy.run Ex.wordy)).map fun x => x.2.2) = [(⟨500, 2⟩, Ex.usd), (⟨-5, 0⟩, Ex.usd)] := by
  decide +kernel

end Limabean
