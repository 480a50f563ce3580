/-
C87: the names of accounts mean nothing but which is below which.
-/
import Verif.Proofs.RenamingLemmas
import Verif.Proofs.RollupLemmas
import Verif.Props.C83

namespace Limabean

open Spec

variable {f : Str → Str}

theorem alike_of_announces {x y : IndexedReport} {a b : Finding} (hx : Announces x a) (hy : Announces y b)
    (h : Finding.Alike a b) : AlikeReports x y := by
  obtain ⟨p1, s1⟩ := hx
  obtain ⟨p2, s2⟩ := hy
  obtain ⟨d, p, fl⟩ := h
  have key : x.related = y.related ∧ Reason.Alike x.reason y.reason := by
    generalize x.related = r1, x.reason = q1 at s1
    generalize y.related = r2, y.reason = q2 at s2
    generalize a.fault = fa at *
    generalize b.fault = fb at *
    cases fl with
    | same => cases s1 <;> cases s2 <;> exact ⟨rfl, by constructor⟩
    | refused he => cases he <;> cases s1 <;> cases s2 <;> exact ⟨rfl, by constructor⟩
  exact ⟨by rw [p1, p2, d, p], key.1, key.2⟩

theorem alike_of_all {xs ys : List IndexedReport} {as bs : List Finding} (hx : List.Forall₂ Announces xs as)
    (hy : List.Forall₂ Announces ys bs) (h : List.Forall₂ Finding.Alike as bs) : List.Forall₂ AlikeReports xs ys := by
  induction h generalizing xs ys with
  | nil => cases hx; cases hy; exact .nil
  | cons h _ ih =>
    cases hx with
    | cons hx hxs =>
      cases hy with
      | cons hy hys => exact .cons (alike_of_announces hx hy h) (ih hxs hys)

section

variable (L : BookLib) (hL : L.Lawful) (hname : NameBlind L) (order : AMap Str (Account L) → AMap Str (Account L))
  (hf : ∀ m, (order m).Perm m) (o : BookOptions) (ds : List Raw.Directive) (hb : KeepsBelow f ds)

include hL hname hf hb

/-- Other names for the accounts, such that the same ones are below each other, neither cause a crash nor prevent one. -/
theorem C87_panics : book L order o (ds.map (renamedDirective f)) = .panic ↔ book L order o ds = .panic := by
  have nopanic : ∀ {ds : List Raw.Directive} {fs ps}, audit L o.bookingMethod o.tolerance ds = some (fs, ps) →
      book L order o ds ≠ .panic := by
    intro ds fs ps ha hp
    by_cases hne : fs = [] ∧ ps = []
    · obtain ⟨rfl, rfl⟩ := hne
      have := (C82_returned L hL order hf o ds _ _).2 ⟨ha, rfl, rfl⟩
      rw [hp] at this
      cases this
    · obtain ⟨es, he, -⟩ := told_of_failure hL hf ha hne
      rw [hp] at he
      cases he
  have h1 := C75_reports L hL order hf o ds
  have h2 := C75_reports L hL order hf o (ds.map (renamedDirective f))
  rcases renamed_audit hL hname o.bookingMethod o.tolerance hb with ⟨a1, a2⟩ | ⟨fs, fs', ps, a1, a2, -⟩
  · rw [a1] at h1
    rw [a2] at h2
    exact ⟨fun _ => h1, fun _ => h2⟩
  · exact ⟨fun h => absurd h (nopanic a2), fun h => absurd h (nopanic a1)⟩

/-- A ledger which is accepted is so under other names for the accounts, if the same ones are below each other. The same
directives are returned, but for the names, and the same warnings given. -/
theorem C87_returned (out : List Booked.Directive) (w : List IndexedReport) (h : book L order o ds = .success out w) :
    book L order o (ds.map (renamedDirective f)) = .success (out.map (renamedBooked f)) w := by
  obtain ⟨ha, rfl, rfl⟩ := (C82_returned L hL order hf o _ _ _).1 h
  rcases renamed_audit hL hname o.bookingMethod o.tolerance hb with ⟨a1, -⟩ | ⟨fs, fs', ps, a1, a2, a3⟩
  · rw [ha] at a1; cases a1
  · rw [ha] at a1
    cases a1
    cases a3
    exact (C82_returned L hL order hf o _ _ _).2 ⟨a2, (renamed_returned hL hname _ _ hb).symm, (renamed_warned f ds).symm⟩

/-- A ledger which is refused is so under other names for the accounts, if the same ones are below each other: there are as
many reports, in some order, at the same places, for the same reasons, referring to the same directives. -/
theorem C87_reports (es : List IndexedReport) (h : book L order o ds = .failure es) :
    ∃ es' xs ys, book L order o (ds.map (renamedDirective f)) = .failure es' ∧ es.Perm xs ∧ es'.Perm ys ∧
      List.Forall₂ AlikeReports xs ys := by
  rcases renamed_audit hL hname o.bookingMethod o.tolerance hb with ⟨a1, -⟩ | ⟨fs, fs', ps, a1, a2, a3⟩
  · have h1 := C75_reports L hL order hf o ds
    rw [a1, h] at h1
    cases h1
  · by_cases hne : fs = [] ∧ ps = []
    · obtain ⟨rfl, rfl⟩ := hne
      have := (C82_returned L hL order hf o ds _ _).2 ⟨a1, rfl, rfl⟩
      rw [h] at this
      cases this
    · have hne' : ¬ (fs' = [] ∧ ps = []) := by
        rintro ⟨rfl, rfl⟩
        cases a3
        exact hne ⟨rfl, rfl⟩
      obtain ⟨es1, h1, xs, hx1, hx2⟩ := told_of_failure hL hf a1 hne
      obtain ⟨es2, h2, ys, hy1, hy2⟩ := told_of_failure hL hf a2 hne'
      rw [h] at h1
      cases h1
      exact ⟨es2, xs, ys, h2, hx1, hy1, alike_of_all hx2 hy2 (List.rel_append a3 (Finding.alike_refl ps))⟩

end

/-- Other words for the components of account names, without colons and different for different words, respect which
account is below which. So it is for the roots of the accounts in another language. -/
theorem C87_words (g : Str → Str) (hg : ∀ w, ':' ∉ w → ':' ∉ g w)
    (hi : ∀ w w', ':' ∉ w → ':' ∉ w' → g w = g w' → w = w') (ds : List Raw.Directive) : KeepsBelow (wordwise g) ds := by
  intro d _ a _ e _ b _
  have comp : ∀ a, components (wordwise g a) = (components a).map g := by
    intro a
    refine components_join ?_ (by simpa using components_ne_nil a)
    intro c hc
    obtain ⟨w, hw, rfl⟩ := List.mem_map.1 hc
    exact hg w (components_no_colon hw)
  show components _ <+: components _ ↔ components a <+: components b
  rw [comp, comp]
  have key : ∀ ws ws' : List Str, (∀ w ∈ ws, ':' ∉ w) → (∀ w ∈ ws', ':' ∉ w) → (ws.map g <+: ws'.map g ↔ ws <+: ws') := by
    intro ws
    induction ws with
    | nil => simp
    | cons w ws ih =>
      intro ws' h h'
      cases ws' with
      | nil => simp
      | cons w' ws' =>
        simp only [List.map_cons, List.cons_prefix_cons]
        rw [ih ws' (fun x hx => h x (List.mem_cons_of_mem _ hx)) fun x hx => h' x (List.mem_cons_of_mem _ hx)]
        exact and_congr_left fun _ => ⟨hi _ _ (h w (by simp)) (h' w' (by simp)), fun e => by rw [e]⟩
  exact key _ _ (fun w hw => components_no_colon hw) fun w hw => components_no_colon hw

/-! ### The contract can be met -/

theorem Toy.applyAll_renamed {b : Booking} {f : Str → Str} {a : Str} (pos : Toy.Pos) (ps : List Raw.PostingSpec) (is : List Interpolated)
    (h : ∀ p ∈ ps, f p.acc = f a → p.acc = a) :
    Toy.applyAll b (f a) pos (ps.map (renamedPosting f)) is = Toy.applyAll b a pos ps is := by
  induction ps generalizing pos is with
  | nil => simp [Toy.applyAll]
  | cons p ps ih =>
    cases is with
    | nil => simp [Toy.applyAll]
    | cons i is =>
      simp only [List.map_cons, Toy.applyAll]
      rw [ih _ _ fun q hq => h q (List.mem_cons_of_mem _ hq)]
      congr 1
      by_cases he : p.acc = a
      · simp [renamedPosting, he]
      · have hne : ¬ f p.acc = f a := fun x => he (h p (by simp) x)
        simp [renamedPosting, he, hne]

theorem Toy.lib_nameBlind : NameBlind Toy.lib := by
  intro f date ps tol inv inv' method method' hi h
  show AlikeBookings f (Toy.bookAll date ps tol inv method) (Toy.bookAll date (ps.map (renamedPosting f)) tol inv' method')
  have hc : Toy.complete (ps.map (renamedPosting f)) = Toy.complete ps := by
    simp only [Toy.complete, List.filter_map, List.length_map]
    rfl
  have hr : Toy.residual (ps.map (renamedPosting f)) = Toy.residual ps := by
    simp only [Toy.residual, List.filterMap_map]
    rfl
  have hint : ((ps.map (renamedPosting f)).map (Toy.interpolate date (Toy.residual ps))) = ps.map (Toy.interpolate date (Toy.residual ps)) := by
    rw [List.map_map]
    rfl
  unfold Toy.bookAll
  rw [hc]
  cases Toy.complete ps with
  | false => exact .transaction _ _
  | true =>
    simp only [if_true, hr, hint, AlikeBookings, true_and]
    have hmap : ((ps.map (renamedPosting f)).map fun p => p.acc) = (ps.map fun p => p.acc).map f := by
      rw [List.map_map, List.map_map]; rfl
    rw [hmap]
    have hd : ((ps.map fun p => p.acc).map f).dedup.Perm ((ps.map fun p => p.acc).dedup.map f) := by
      rw [List.perm_ext_iff_of_nodup (List.nodup_dedup _)]
      · intro a; simp
      · refine List.Nodup.map_on ?_ (List.nodup_dedup _)
        intro a ha b hb e
        obtain ⟨p, hp, rfl⟩ := List.mem_map.1 (List.mem_dedup.1 ha)
        obtain ⟨q, hq, rfl⟩ := List.mem_map.1 (List.mem_dedup.1 hb)
        exact hi p hp q hq e
    refine (hd.map _).trans ?_
    rw [List.map_map, List.map_map]
    refine List.Perm.of_eq (List.map_congr_left ?_)
    intro a ha
    obtain ⟨p, hp, rfl⟩ := List.mem_map.1 (List.mem_dedup.1 ha)
    simp only [Function.comp, (h p hp).1, (h p hp).2]
    rw [Toy.applyAll_renamed]
    exact fun q hq e => hi q hq p hp e

namespace Ex

open Toy

/-- Roots in another language. -/
def activa (w : Str) : Str :=
  if w = str% "Assets" then str% "Activa" else if w = str% "Activa" then str% "Assets" else w

theorem activa_colon (w : Str) (h : ':' ∉ w) : ':' ∉ activa w := by
  unfold activa
  split
  · decide
  · split
    · decide
    · exact h

theorem activa_inj (w w' : Str) (h : activa w = activa w') : w = w' := by
  have inv : ∀ w, activa (activa w) = w := by
    intro w
    unfold activa
    by_cases h1 : w = str% "Assets"
    · simp [h1]
    · by_cases h2 : w = str% "Activa"
      · simp [h2]
      · simp [h1, h2]
  rw [← inv w, h, inv]

/-- An accepted ledger, with a filled pad and a posting below: the hypotheses are met and the names do change. -/
example : KeepsBelow (wordwise activa) ledger ∧ NameBlind lib ∧ lib.Lawful ∧ run ledger = .success out [] ∧
    wordwise activa bank = str% "Activa:Bank" ∧ (ledger.map (renamedDirective (wordwise activa))) ≠ ledger :=
  ⟨C87_words activa activa_colon (fun w w' _ _ h => activa_inj w w' h) _, lib_nameBlind, lib_lawful, by decide +kernel,
    by decide +kernel, by decide +kernel⟩

example : run (ledger.map (renamedDirective (wordwise activa))) = .success (out.map (renamedBooked (wordwise activa))) [] :=
  C87_returned lib lib_lawful lib_nameBlind id fair_id {} ledger
    (C87_words activa activa_colon (fun w w' _ _ h => activa_inj w w' h) _) out [] (by decide +kernel)

/-- A refused ledger. -/
example : (run (twoParts.map (renamedDirective (wordwise activa)))).reports.map (fun r => r.idx.directive) = [8, 9, 10, 6] := by
  decide +kernel

/-- What is below must be respected: merely different names will not do. -/
def apart (a : Str) : Str := if a = current then str% "Assets:Current" else a

example : (∀ a b, a ∈ [bank, current, equity] → b ∈ [bank, current, equity] → apart a = apart b → a = b) ∧
    ¬ KeepsBelow apart [mkOpen 1 bank, mkOpen 1 current] ∧
    (run [mkOpen 1 bank, mkOpen 1 current, mkOpen 1 equity, mkTxn 2 [(current, ⟨5, 0⟩, nzd), (equity, ⟨-5, 0⟩, nzd)],
      mkBal 3 bank ⟨5, 0⟩ nzd]).reports.length = 0 ∧
    (run ([mkOpen 1 bank, mkOpen 1 current, mkOpen 1 equity, mkTxn 2 [(current, ⟨5, 0⟩, nzd), (equity, ⟨-5, 0⟩, nzd)],
      mkBal 3 bank ⟨5, 0⟩ nzd].map (renamedDirective apart))).reports.length = 1 := by
  refine ⟨?_, ?_, by decide +kernel, by decide +kernel⟩
  · simp only [List.mem_cons, List.not_mem_nil, or_false]
    rintro a b (rfl | rfl | rfl) (rfl | rfl | rfl) <;> decide +kernel
  · intro h
    exact absurd ((h (mkOpen 1 bank) (by simp) bank (by decide +kernel) (mkOpen 1 current) (by simp) current (by decide +kernel)).2 (by decide +kernel))
      (by decide +kernel)

end Ex

end Limabean
