/-
C109: the names of currencies and the calendar mean nothing to booking.
-/
import Verif.Proofs.RelabelLemmas
import Verif.Props.C83

namespace Limabean

open Spec

variable {ρ : Relabel}

/-- The options of booking with the other names: the tolerances for currencies. -/
def Spec.Relabel.options (ρ : Relabel) (o : BookOptions) : BookOptions := { o with tolerance := ρ.tolerance o.tolerance }

theorem relabelled_of_announces {x y : IndexedReport} {a b : Finding} (hx : Announces x a) (hy : Announces y b)
    (h : RelabelledFinding ρ a b) : RelabelledReport ρ x y := by
  obtain ⟨p1, s1⟩ := hx
  obtain ⟨p2, s2⟩ := hy
  obtain ⟨d, p, fl⟩ := h
  have key : x.related = y.related ∧ RelabelledReason ρ x.reason y.reason := by
    generalize x.related = r1, x.reason = q1 at s1
    generalize y.related = r2, y.reason = q2 at s2
    generalize a.fault = fa at *
    generalize b.fault = fb at *
    cases fl with
    | same _ hg =>
      cases s1 <;> cases s2 <;> first
        | exact absurd rfl (hg _ _)
        | exact ⟨rfl, .same _ (by simp)⟩
    | refused he => cases he <;> cases s1 <;> cases s2 <;> first
        | exact ⟨rfl, .library _ _⟩
        | exact ⟨rfl, .libraryPosting _ _ _⟩
    | gap => cases s1; cases s2; exact ⟨rfl, .accumulated _ _ _ _⟩
  exact ⟨by rw [p1, p2, d, p], key.1, key.2⟩

theorem relabelled_of_all {xs ys : List IndexedReport} {as bs : List Finding} (hx : List.Forall₂ Announces xs as)
    (hy : List.Forall₂ Announces ys bs) (h : List.Forall₂ (RelabelledFinding ρ) as bs) : List.Forall₂ (RelabelledReport ρ) xs ys := by
  induction h generalizing xs ys with
  | nil => cases hx; cases hy; exact .nil
  | cons h _ ih =>
    cases hx with
    | cons hx hxs =>
      cases hy with
      | cons hy hys => exact .cons (relabelled_of_announces hx hy h) (ih hxs hys)

theorem unbalanced_relabelled {L : BookLib} (s : Tally L) : List.Forall₂ (RelabelledFinding ρ) s.unbalanced s.unbalanced := by
  refine List.forall₂_same.2 fun x hx => ?_
  unfold Tally.unbalanced at hx
  obtain ⟨a, -, h⟩ := List.mem_filterMap.1 hx
  obtain ⟨p, -, rfl⟩ := Option.map_eq_some_iff.1 h
  exact ⟨rfl, rfl, .same _ (by simp)⟩

section

variable (L : BookLib) (hL : L.Lawful) (hi : Function.Injective ρ.cur) {R : L.Pos → L.Pos → Prop} (hR : Relabels ρ L R)
  (order : AMap Str (Account L) → AMap Str (Account L)) (hf : ∀ m, (order m).Perm m) (o : BookOptions) (ds : List Raw.Directive)

include hL hi hR hf

/-- **C109**: other names for the currencies, different for different ones, and other dates neither cause a crash nor prevent one. -/
theorem C109_panics : book L order (ρ.options o) (ds.map ρ.directive) = .panic ↔ book L order o ds = .panic := by
  have nopanic : ∀ {o : BookOptions} {ds : List Raw.Directive} {fs ps}, audit L o.bookingMethod o.tolerance ds = some (fs, ps) →
      book L order o ds ≠ .panic := by
    intro o ds fs ps ha hp
    by_cases hne : fs = [] ∧ ps = []
    · obtain ⟨rfl, rfl⟩ := hne
      have := (C82_returned L hL order hf o ds _ _).2 ⟨ha, rfl, rfl⟩
      rw [hp] at this
      cases this
    · obtain ⟨es, he, -⟩ := told_of_failure hL hf ha hne
      rw [hp] at he
      cases he
  have h1 := C75_reports L hL order hf o ds
  have h2 := C75_reports L hL order hf (ρ.options o) (ds.map ρ.directive)
  rcases relabelled_audit hL hi hR o.bookingMethod o.tolerance ds with ⟨a1, a2⟩ | ⟨fs, fs', ps, a1, a2, -⟩
  · rw [a1] at h1
    rw [show audit L (ρ.options o).bookingMethod (ρ.options o).tolerance (ds.map ρ.directive) = none from a2] at h2
    exact ⟨fun _ => h1, fun _ => h2⟩
  · exact ⟨fun h => absurd h (nopanic (o := ρ.options o) a2), fun h => absurd h (nopanic a1)⟩

/-- **C109**: a ledger which is accepted is so with other names for the currencies and other dates. The same directives are returned, but
for the names and dates, and the same warnings given. -/
theorem C109_returned (out : List Booked.Directive) (w : List IndexedReport) (h : book L order o ds = .success out w) :
    book L order (ρ.options o) (ds.map ρ.directive) = .success (out.map ρ.booked) w := by
  obtain ⟨ha, rfl, rfl⟩ := (C82_returned L hL order hf o _ _ _).1 h
  rcases relabelled_audit hL hi hR o.bookingMethod o.tolerance ds with ⟨a1, -⟩ | ⟨fs, fs', ps, a1, a2, a3⟩
  · rw [ha] at a1; cases a1
  · rw [ha] at a1
    cases a1
    cases a3
    exact (C82_returned L hL order hf (ρ.options o) _ _ _).2
      ⟨a2, (relabelled_returned hL hi hR _ _ ds).symm, (relabelled_warned ρ ds).symm⟩

/-- **C109**: a ledger which is refused is so with other names for the currencies and other dates: there are as many reports, in some order,
at the same places, for the same reasons, referring to the same directives. -/
theorem C109_reports (es : List IndexedReport) (h : book L order o ds = .failure es) :
    ∃ es' xs ys, book L order (ρ.options o) (ds.map ρ.directive) = .failure es' ∧ es.Perm xs ∧ es'.Perm ys ∧
      List.Forall₂ (RelabelledReport ρ) xs ys := by
  rcases relabelled_audit hL hi hR o.bookingMethod o.tolerance ds with ⟨a1, -⟩ | ⟨fs, fs', ps, a1, a2, a3⟩
  · have h1 := C75_reports L hL order hf o ds
    rw [a1, h] at h1
    cases h1
  · by_cases hne : fs = [] ∧ ps = []
    · obtain ⟨rfl, rfl⟩ := hne
      have := (C82_returned L hL order hf o ds _ _).2 ⟨a1, rfl, rfl⟩
      rw [h] at this
      cases this
    · have hne' : ¬ (fs' = [] ∧ ps = []) := by
        rintro ⟨rfl, rfl⟩
        cases a3
        exact hne ⟨rfl, rfl⟩
      obtain ⟨es1, h1, xs, hx1, hx2⟩ := told_of_failure hL hf a1 hne
      obtain ⟨es2, h2, ys, hy1, hy2⟩ := told_of_failure hL (o := ρ.options o) hf a2 hne'
      rw [h] at h1
      cases h1
      have hps : List.Forall₂ (RelabelledFinding ρ) ps ps := by
        obtain ⟨r, hr, e⟩ := Option.map_eq_some_iff.1 a1
        cases e
        exact unbalanced_relabelled _
      exact ⟨es2, xs, ys, h2, hx1, hy1, relabelled_of_all hx2 hy2 (List.rel_append a3 hps)⟩

end

/-! ### The contract can be met -/

namespace Toy

/-- The same holdings under other names. -/
def SameHeld (ρ : Relabel) (p p' : Toy.Pos) : Prop := p' = p.map fun x => (ρ.cur x.1, x.2)

theorem get_labelled {V : Type} {g : Str → Str} (hi : Function.Injective g) (m : AMap Str V) (c : Str) :
    AMap.get (m.map fun x => (g x.1, x.2)) (g c) = m.get c := by
  induction m with
  | nil => rfl
  | cons x m ih => simp only [List.map_cons, AMap.get, hi.eq_iff, ih]

theorem set_labelled {V : Type} {g : Str → Str} (hi : Function.Injective g) (m : AMap Str V) (c : Str) (v : V) :
    AMap.set (m.map fun x => (g x.1, x.2)) (g c) v = (m.set c v).map fun x => (g x.1, x.2) := by
  induction m with
  | nil => rfl
  | cons x m ih =>
    simp only [List.map_cons, AMap.set, hi.eq_iff]
    split
    · rfl
    · rw [ih]; rfl

theorem units_labelled (hi : Function.Injective ρ.cur) {p p' : Toy.Pos} (h : SameHeld ρ p p') (c : Str) :
    Toy.units p' (ρ.cur c) = Toy.units p c := by
  subst h
  unfold Toy.units
  rw [get_labelled hi]

theorem accumulate_labelled (hi : Function.Injective ρ.cur) {p p' : Toy.Pos} (h : SameHeld ρ p p') (u : Dec) (c : Str) (b : Booking) :
    SameHeld ρ (Toy.accumulate p u c b) (Toy.accumulate p' u (ρ.cur c) b) := by
  unfold Toy.accumulate SameHeld
  rw [units_labelled hi h, h, set_labelled hi]

theorem lots_labelled (hn : ρ.cur (str% "NZD") = str% "NZD") (date : Date) (u : Dec) (c : Raw.CostSpec) :
    Toy.lots (ρ.date date) u (ρ.costSpec c) = (Toy.lots date u c).map ρ.lot := by
  obtain ⟨pu, tot, cur, d, l, m⟩ := c
  cases pu <;> cases cur <;> cases d <;> simp [Toy.lots, Relabel.costSpec, Relabel.lot, hn]

theorem interpolate_labelled (hn : ρ.cur (str% "NZD") = str% "NZD") (date : Date) (r : Dec × Str) (p : Raw.PostingSpec) :
    Toy.interpolate (ρ.date date) (r.1, ρ.cur r.2) (ρ.posting p) = ρ.interpolated (Toy.interpolate date r p) := by
  obtain ⟨span, flag, acc, units, cur, cost, price, tags, links, md⟩ := p
  simp only [Toy.interpolate, Relabel.posting, Relabel.interpolated, Interpolated.mk.injEq, true_and]
  refine ⟨by cases cur <;> rfl, ?_, ?_⟩
  · cases cost with
    | none => rfl
    | some c => simp [lots_labelled hn]
  · cases price with
    | none => rfl
    | some q =>
      obtain ⟨pu, tot, c⟩ := q
      cases pu <;> cases c <;> rfl

theorem residual_labelled (he : ρ.cur [] = []) (ps : List Raw.PostingSpec) :
    Toy.residual (ps.map ρ.posting) = ((Toy.residual ps).1, ρ.cur (Toy.residual ps).2) := by
  simp only [Toy.residual, List.filterMap_map]
  refine Prod.ext rfl ?_
  simp only
  induction ps with
  | nil => simp [he]
  | cons p ps ih =>
    simp only [List.filterMap_cons, Function.comp, Relabel.posting]
    cases p.cur with
    | none => exact ih
    | some c => rfl

theorem addPosting_labelled (hi : Function.Injective ρ.cur) {p p' : Toy.Pos} (h : SameHeld ρ p p') (b : Booking) (i : Interpolated) :
    SameHeld ρ (Toy.addPosting b p i) (Toy.addPosting b p' (ρ.interpolated i)) := by
  obtain ⟨u, c, cost, price⟩ := i
  cases cost with
  | none => exact accumulate_labelled hi h _ _ b
  | some ls =>
    simp only [Toy.addPosting, Relabel.interpolated, Option.map_some]
    induction ls generalizing p p' with
    | nil => exact h
    | cons l ls ih => exact ih (accumulate_labelled hi h _ _ b)

theorem applyAll_labelled (hi : Function.Injective ρ.cur) (b : Booking) (a : Str) (ps : List Raw.PostingSpec) (is : List Interpolated)
    {p p' : Toy.Pos} (h : SameHeld ρ p p') :
    SameHeld ρ (Toy.applyAll b a p ps is) (Toy.applyAll b a p' (ps.map ρ.posting) (is.map ρ.interpolated)) := by
  induction ps generalizing p p' is with
  | nil => exact h
  | cons q ps ih =>
    cases is with
    | nil => exact h
    | cons i is =>
      simp only [List.map_cons, Toy.applyAll, show (ρ.posting q).acc = q.acc from rfl]
      refine ih _ ?_
      split
      · exact addPosting_labelled hi h b i
      · exact h

/-- Names mean nothing to the toy library, but for one name which it knows. -/
theorem lib_relabels (hi : Function.Injective ρ.cur) (hn : ρ.cur (str% "NZD") = str% "NZD") (he : ρ.cur [] = []) :
    Relabels ρ Toy.lib (SameHeld ρ) where
  empty := rfl
  units _ _ c h := units_labelled hi h c
  accumulate _ _ u c b h := accumulate_labelled hi h u c b
  book date ps tol inv inv' method h := by
    show RelabelledBookings ρ (SameHeld ρ) (Toy.bookAll date ps tol inv method) (Toy.bookAll (ρ.date date) (ps.map ρ.posting) (ρ.tolerance tol) inv' method)
    have hc : Toy.complete (ps.map ρ.posting) = Toy.complete ps := by
      simp only [Toy.complete, List.filter_map, List.length_map]
      rfl
    have hint : (ps.map ρ.posting).map (Toy.interpolate (ρ.date date) (Toy.residual (ps.map ρ.posting))) =
        (ps.map (Toy.interpolate date (Toy.residual ps))).map ρ.interpolated := by
      rw [residual_labelled he, List.map_map, List.map_map]
      exact List.map_congr_left fun p _ => interpolate_labelled hn date _ p
    unfold Toy.bookAll
    rw [hc]
    cases Toy.complete ps with
    | false => exact .transaction _ _
    | true =>
      simp only [if_true]
      refine ⟨hint, _, .refl _, ?_⟩
      have hm : ((ps.map ρ.posting).map fun p => p.acc) = ps.map fun p => p.acc := by rw [List.map_map]; rfl
      simp only [hm, hint]
      rw [List.forall₂_map_left_iff, List.forall₂_map_right_iff]
      refine List.forall₂_same.2 fun a _ => ⟨rfl, applyAll_labelled hi _ _ _ _ ?_⟩
      have := h a
      generalize inv a = x at this
      generalize inv' a = y at this
      cases this with
      | none => rfl
      | some h => exact h

end Toy

namespace Ex

open Toy

/-- The name for a currency exchanged with another, and one month later. -/
def abroad : Relabel where
  cur c := if c = usd then str% "EUR" else if c = str% "EUR" then usd else c
  date d := { d with m := d.m + 1 }

theorem abroad_inj : Function.Injective abroad.cur := by
  have inv : ∀ c, abroad.cur (abroad.cur c) = c := by
    intro c
    simp only [abroad]
    by_cases h1 : c = usd
    · subst h1; decide
    · by_cases h2 : c = str% "EUR"
      · subst h2; decide
      · simp [h1, h2]
  intro a b h
  rw [← inv a, h, inv]

/-- A ledger in two currencies: an account which takes one of them, a pad, a posting at a cost and an assertion. -/
def twoCurrencies : List Raw.Directive :=
  [{ date := day 1, variant := .opn { acc := bank, currencies := some [usd, nzd] } }, mkOpen 1 equity, mkPad 2 bank equity,
   mkBal 3 bank ⟨25, 1⟩ usd,
   { date := day 4, variant := .transaction { flag := str% "*", postings := [
      { acc := bank, units := some ⟨3, 0⟩, cur := some nzd, costSpec := some { perUnit := some ⟨2, 0⟩, cur := some usd } },
      { acc := equity, units := some ⟨-6, 0⟩, cur := some usd }] } },
   mkBal 5 bank ⟨3, 0⟩ nzd]

/-- An assertion which fails. -/
def offAbroad : List Raw.Directive := twoCurrencies ++ [mkBal 6 bank ⟨4, 0⟩ usd]

end Ex

/-- Non-vacuity of `C109_returned`: the ledger is accepted, and the names do change. -/
example : Relabels Ex.abroad Toy.lib (Toy.SameHeld Ex.abroad) ∧ Function.Injective Ex.abroad.cur ∧
    (Toy.run Ex.twoCurrencies).reports = [] ∧ (Toy.postingsOf (Toy.run Ex.twoCurrencies)).length = 4 ∧
    Ex.twoCurrencies.map Ex.abroad.directive ≠ Ex.twoCurrencies ∧
    ((Toy.postingsOf (Toy.run (Ex.twoCurrencies.map Ex.abroad.directive))).map fun x => x.2.2) =
      [(⟨25, 1⟩, str% "EUR"), (⟨-25, 1⟩, str% "EUR"), (⟨3, 0⟩, Ex.nzd), (⟨-6, 0⟩, str% "EUR")] :=
  ⟨Toy.lib_relabels Ex.abroad_inj (by decide +kernel) (by decide +kernel), Ex.abroad_inj, by decide +kernel, by decide +kernel, by decide +kernel,
    by decide +kernel⟩

/-- Non-vacuity of `C109_reports`: the ledger is refused. -/
example : ((Toy.run Ex.offAbroad).reports.map fun r => r.reason) = [.accumulated ⟨0, 0⟩ ⟨15, 1⟩ Ex.usd] ∧
    ((Toy.run (Ex.offAbroad.map Ex.abroad.directive)).reports.map fun r => r.reason) = [.accumulated ⟨0, 0⟩ ⟨15, 1⟩ (str% "EUR")] := by
  constructor <;> decide +kernel

end Limabean
