/-
C90: what was booked, printed and loaded again, is booked to the same ledger, unless it was padded.
-/
import Verif.Proofs.RebookLemmas
import Verif.Props.C89
import Verif.Props.Examples

namespace Limabean

open Spec Clj

/-- C90: if nothing is padded, what was booked, written out, is booked again without errors, with the same warnings, and what one gets
is the same as printed, whatever the order in which sets are iterated and whatever spans the directives have. -/
theorem C90_partial {L : BookLib} (hw : L.Lawful) (hr : Rebooks L) (order : AMap Str (Account L) → AMap Str (Account L)) (o : BookOptions)
    {l : List Raw.Directive} (hp : ∀ d ∈ l, ∀ p, d.variant ≠ .pad p) {out : List Booked.Directive} {w : List IndexedReport}
    (h : book L order o l = .success out w) :
    ∃ out', book L order o (out.map asWritten) = .success out' w ∧ out'.map asWritten = out.map asWritten ∧
      ∀ (txt : Data → Str) (ord : List Data → List Data) (raw raw' : Data),
        ledgerText txt (resolveDirectives (.vec (out'.map (ofBooked ord))) raw').elems =
          ledgerText txt (resolveDirectives (.vec (out.map (ofBooked ord))) raw).elems := by
  unfold book collect at h
  cases hl : Run.loop (envOf L o order) 0 l {} with
  | none => rw [hl] at h; cases h
  | some r =>
    rw [hl] at h
    simp only [Run.validate] at h
    split at h
    · rename_i he
      obtain ⟨e1, e2⟩ := List.append_eq_nil_iff.1 (List.isEmpty_iff.1 he)
      cases h
      have n0 : NoPads ({} : State L) := fun a x hx => by cases hx
      obtain ⟨-, t, t', h1, h2, h3⟩ := loop_again (r := {}) (r' := {}) hw hr n0 hp hl e1 rfl rfl rfl
      rw [List.nil_append] at h1
      subst h1
      refine ⟨t', ?_, h2, fun txt ord raw raw' => ?_⟩
      · unfold book collect
        rw [h3]
        simp [Run.validate, e2]
      · unfold ledgerText
        refine congrArg _ ?_
        simp only [resolveDirectives, Data.elems, List.map_map]
        have key : ∀ (raw : Data) (l : List Booked.Directive), l.map (directiveText txt ∘ resolveDirective raw ∘ ofBooked ord) =
            (l.map asWritten).map (directiveText txt ∘ ofDirective ord) := by
          intro raw l
          rw [List.map_map]
          exact List.map_congr_left fun d _ => C89_written txt ord raw d
        rw [key, key, h2]
    · cases h

namespace Ex

/-- A ledger whose bank account is padded. -/
def paddedOnce : List Raw.Directive :=
  [Toy.mkOpen 1 equity, Toy.mkOpen 1 bank, Toy.mkPad 2 bank equity, Toy.mkBal 3 bank ⟨100, 0⟩ nzd]

/-- What it is booked to. -/
def onceBooked : List Booked.Directive :=
  match Toy.run paddedOnce with
  | .success ds _ => ds
  | _ => []

end Ex

/-- C90 is false where there are pads: they are printed together with the transactions which they caused, so that, loaded again,
there is nothing left to pad, which is an error. -/
theorem C90_false : Toy.run Ex.paddedOnce = .success Ex.onceBooked [] ∧
    Toy.run (Ex.onceBooked.map asWritten) = .failure [{ reason := .unusedNoAdjustment, idx := { directive := 2 } }] := by
  decide +kernel

namespace Toy

theorem dedup_flatMap (l : List (Str × Nat)) (h : ∀ x ∈ l, 0 < x.2) :
    (l.flatMap fun x => List.replicate x.2 x.1).dedup = (l.map Prod.fst).dedup := by
  induction l with
  | nil => rfl
  | cons x l ih =>
    obtain ⟨a, n⟩ := x
    have ih := ih fun y hy => h y (by simp [hy])
    have hm : ∀ b, b ∈ (l.flatMap fun x => List.replicate x.2 x.1) ↔ b ∈ l.map Prod.fst := by
      intro b
      rw [← List.mem_dedup, ih, List.mem_dedup]
    rw [List.flatMap_cons, List.map_cons]
    have key : ∀ n, (List.replicate (n + 1) a ++ l.flatMap fun x => List.replicate x.2 x.1).dedup = (a :: l.map Prod.fst).dedup := by
      intro n
      induction n with
      | zero =>
        change (a :: l.flatMap fun x => List.replicate x.2 x.1).dedup = _
        by_cases ha : a ∈ l.map Prod.fst
        · rw [List.dedup_cons_of_mem ha, List.dedup_cons_of_mem ((hm a).2 ha), ih]
        · rw [List.dedup_cons_of_notMem ha, List.dedup_cons_of_notMem fun h => ha ((hm a).1 h), ih]
      | succ n ihn => rw [List.replicate_succ, List.cons_append, List.dedup_cons_of_mem (by simp), ihn]
    have := h (a, n) (by simp)
    obtain ⟨m, rfl⟩ : ∃ m, n = m + 1 := ⟨n - 1, by omega⟩
    exact key m

/-- The written postings of one posting. -/
def again (i : Nat) (ip : Interpolated) (p : Raw.PostingSpec) : List Raw.PostingSpec := (bookedPostingsOf i ip p).map postingWritten

theorem interpolate_price (d : Date) (res : Dec × Str) (p : Raw.PostingSpec) :
    ∀ x ∈ (interpolate d res p).price, x.total = none := by
  intro x hx
  simp only [interpolate, Option.mem_def, Option.bind_eq_some_iff] at hx
  obtain ⟨ps, -, hx⟩ := hx
  split at hx <;> cases hx
  rfl

theorem lots_written {d : Date} {u : Dec} {cs : Raw.CostSpec} {l : LotCost} (h : l ∈ lots d u cs) (d' : Date) :
    lots d' l.units (costWritten (curPostingCostToCost l)) = [l] := by
  unfold lots at h
  split at h
  · simp only [List.mem_cons, List.not_mem_nil, or_false] at h
    subst h
    rfl
  · simp only [List.mem_cons, List.not_mem_nil, or_false] at h
    rcases h with rfl | rfl <;> rfl

theorem lots_ne_nil (d : Date) (u : Dec) (cs : Raw.CostSpec) : lots d u cs ≠ [] := by
  unfold lots
  split <;> simp

/-- The written postings of one posting are interpolated to its lots. -/
theorem interpolate_again (d : Date) (res res' : Dec × Str) (i : Nat) (p : Raw.PostingSpec) :
    (again i (interpolate d res p) p).map (interpolate d res') = perLot (interpolate d res p) := by
  unfold again bookedPostingsOf perLot
  cases hc : (interpolate d res p).cost with
  | none =>
    have hp := interpolate_price d res p
    generalize interpolate d res p = ip at *
    obtain ⟨u, c, cost, price⟩ := ip
    dsimp only at hc hp
    subst hc
    simp only [List.map_cons, List.map_nil, postingWritten, interpolate, Option.getD_some, Option.map_none, List.cons.injEq, and_true,
      Interpolated.mk.injEq, true_and]
    cases price with
    | none => rfl
    | some x =>
      have := hp x rfl
      obtain ⟨a, b, c⟩ := x
      dsimp only at this
      subst this
      rfl
  | some ls =>
    simp only [List.map_map]
    refine List.map_congr_left fun l hl => ?_
    have hl' : ∃ cs, l ∈ lots d (interpolate d res p).units cs := by
      simp only [interpolate, Option.map_eq_some_iff] at hc
      obtain ⟨cs, -, rfl⟩ := hc
      exact ⟨cs, hl⟩
    obtain ⟨cs, hl'⟩ := hl'
    simp [postingWritten, interpolate, lots_written hl']

theorem again_acc (i : Nat) (ip : Interpolated) (p : Raw.PostingSpec) : (again i ip p).map (fun q => q.acc) = List.replicate (perLot ip).length p.acc := by
  unfold again bookedPostingsOf perLot
  cases ip.cost with
  | none => rfl
  | some ls =>
    simp only [List.map_map, List.length_map]
    exact List.map_const'

theorem applyAll_append (b : Booking) (a : Str) (ps qs : List Raw.PostingSpec) (is js : List Interpolated) (h : ps.length = is.length) (pos : Pos) :
    applyAll b a pos (ps ++ qs) (is ++ js) = applyAll b a (applyAll b a pos ps is) qs js := by
  induction ps generalizing is pos with
  | nil =>
    cases is with
    | nil => rfl
    | cons => cases h
  | cons p ps ih =>
    cases is with
    | nil => cases h
    | cons i is => simp only [List.cons_append, applyAll]; exact ih is (by simpa using h) _

theorem applyAll_again (b : Booking) (a : Str) (pos : Pos) (i : Nat) (ip : Interpolated) (p : Raw.PostingSpec) :
    applyAll b a pos (again i ip p) (perLot ip) = if p.acc = a then addPosting b pos ip else pos := by
  unfold again bookedPostingsOf perLot addPosting
  cases hc : ip.cost with
  | none => simp [applyAll, postingWritten, addPosting, hc]
  | some ls =>
    simp only
    clear hc
    induction ls generalizing pos with
    | nil => simp [applyAll]
    | cons l ls ih =>
      simp only [List.map_cons, applyAll, ih, postingWritten, List.foldl_cons, addPosting, List.foldl_nil]
      split <;> rfl

theorem bookedPostings_written (d : Date) (res : Dec × Str) (ps : List Raw.PostingSpec) (i : Nat) :
    (bookedPostings i ((ps.map (interpolate d res)).zip ps)).map postingWritten =
      (ps.zipIdx i).flatMap fun x => again x.2 (interpolate d res x.1) x.1 := by
  induction ps generalizing i with
  | nil => rfl
  | cons p ps ih =>
    simp only [List.map_cons, List.zip_cons_cons, bookedPostings, List.map_append, ih, List.zipIdx_cons, List.flatMap_cons]
    rfl

theorem interpolate_all (d : Date) (res res' : Dec × Str) (ps : List Raw.PostingSpec) (i : Nat) :
    ((ps.zipIdx i).flatMap fun x => again x.2 (interpolate d res x.1) x.1).map (interpolate d res') =
      (ps.map (interpolate d res)).flatMap perLot := by
  induction ps generalizing i with
  | nil => rfl
  | cons p ps ih => simp only [List.zipIdx_cons, List.flatMap_cons, List.map_append, List.map_cons, interpolate_again, ih]

theorem perLot_pos (d : Date) (res : Dec × Str) (p : Raw.PostingSpec) : 0 < (perLot (interpolate d res p)).length := by
  unfold perLot
  cases hc : (interpolate d res p).cost with
  | none => simp
  | some ls =>
    simp only [interpolate, Option.map_eq_some_iff] at hc
    obtain ⟨cs, -, rfl⟩ := hc
    simpa [List.length_pos_iff] using lots_ne_nil d _ cs

theorem again_accs (d : Date) (res : Dec × Str) (ps : List Raw.PostingSpec) (i : Nat) :
    (((ps.zipIdx i).flatMap fun x => again x.2 (interpolate d res x.1) x.1).map fun p => p.acc) =
      (ps.map fun p => (p.acc, (perLot (interpolate d res p)).length)).flatMap fun x => List.replicate x.2 x.1 := by
  induction ps generalizing i with
  | nil => rfl
  | cons p ps ih => simp only [List.zipIdx_cons, List.flatMap_cons, List.map_append, List.map_cons, again_acc, ih]

theorem again_length (i : Nat) (ip : Interpolated) (p : Raw.PostingSpec) : (again i ip p).length = (perLot ip).length := by
  have := congrArg List.length (again_acc i ip p)
  simpa using this

theorem applyAll_all (b : Booking) (a : Str) (d : Date) (res : Dec × Str) (ps : List Raw.PostingSpec) (i : Nat) (pos : Pos) :
    applyAll b a pos ((ps.zipIdx i).flatMap fun x => again x.2 (interpolate d res x.1) x.1) ((ps.map (interpolate d res)).flatMap perLot) =
      applyAll b a pos ps (ps.map (interpolate d res)) := by
  induction ps generalizing i pos with
  | nil => rfl
  | cons p ps ih =>
    simp only [List.zipIdx_cons, List.flatMap_cons, List.map_cons]
    rw [applyAll_append _ _ _ _ _ _ (again_length _ _ _), applyAll_again, ih]
    rfl

/-- The toy library books again what it has booked to the same effect. -/
theorem lib_rebooks : Rebooks lib := by
  intro d ps t inv bk r h
  have h : bookAll d ps t inv bk = .ok r := h
  rw [bookAll_ok h]
  dsimp only
  rw [bookedPostings_written]
  generalize residual ps = res
  refine ⟨(ps.map (interpolate d res)).flatMap perLot, ?_, ?_⟩
  · change bookAll d _ t inv bk = _
    have hc : complete ((ps.zipIdx 0).flatMap fun x => again x.2 (interpolate d res x.1) x.1) = true := by
      have : ∀ q ∈ ((ps.zipIdx 0).flatMap fun x => again x.2 (interpolate d res x.1) x.1), q.units.isNone = false := by
        intro q hq
        obtain ⟨x, -, hq⟩ := List.mem_flatMap.1 hq
        obtain ⟨y, -, rfl⟩ := List.mem_map.1 hq
        rfl
      unfold complete
      rw [List.filter_eq_nil_iff.2 fun q hq => by rw [this q hq]; decide]
      rfl
    unfold bookAll
    rw [if_pos hc]
    simp only [interpolate_all, again_accs, applyAll_all]
    rw [dedup_flatMap _ fun x hx => by
      obtain ⟨p, -, rfl⟩ := List.mem_map.1 hx
      exact perLot_pos d res p, List.map_map]
    rfl
  · have refl_lots : ∀ l : List LotCost, List.Forall₂ SameLot l l := by
      intro l
      induction l with
      | nil => exact .nil
      | cons a l ih => exact .cons ⟨rfl, rfl, rfl, rfl, rfl, rfl⟩ ih
    have refl_all : ∀ l : List Interpolated, List.Forall₂ SameInterpolated l l := by
      intro l
      induction l with
      | nil => exact .nil
      | cons a l ih =>
        refine .cons ⟨rfl, rfl, ?_, ?_⟩ ih
        · cases a.cost with
          | none => exact trivial
          | some x => exact refl_lots x
        · cases a.price with
          | none => exact trivial
          | some x => exact ⟨rfl, rfl⟩
    exact refl_all _

end Toy

namespace Ex

/-- A ledger without pads: with an interpolated amount, a posting matched against two lots, a balance, and a booking method of which
booking warns. -/
def unpadded : List Raw.Directive :=
  [Toy.mkOpen 1 equity, Toy.mkOpen 1 bank none (some .average), Toy.mkOpen 1 current (some [nzd]), Toy.mkOpen 1 food, lunch, sale,
    Toy.mkBal 7 bank ⟨-1250, 2⟩ nzd, Toy.mkBal 7 bank ⟨3, 0⟩ usd]

/-- It is booked with warnings, the two lots as two postings. -/
example : (match Toy.run unpadded with
    | .success ds w => (decide (w.length = 2), (ds.map asWritten).map fun d => match d.variant with
        | .transaction t => t.postings.map fun p => (p.acc, p.units, p.costSpec.bind fun c => c.perUnit)
        | _ => [])
    | _ => (false, [])) =
    (true, [[], [], [], [], [(current, some ⟨-1250, 2⟩, none), (food, some ⟨1250, 2⟩, none)],
      [(bank, some ⟨1, 0⟩, some ⟨10, 0⟩), (bank, some ⟨2, 0⟩, some ⟨11, 0⟩), (equity, some ⟨-3, 0⟩, none)], [], []]) := by
  decide +kernel

/-- The hypotheses hold of it. -/
example : ∃ out w, Toy.run unpadded = .success out w ∧ Toy.lib.Lawful ∧ Rebooks Toy.lib ∧ ∀ d ∈ unpadded, ∀ p, d.variant ≠ .pad p := by
  have h : (match Toy.run unpadded with | .success .. => true | _ => false) = true := by decide +kernel
  split at h
  · rename_i ds w hs
    refine ⟨ds, w, hs, Toy.lib_lawful, Toy.lib_rebooks, fun d hd p => ?_⟩
    simp only [unpadded, List.mem_cons, List.not_mem_nil, or_false] at hd
    rcases hd with rfl | rfl | rfl | rfl | rfl | rfl | rfl | rfl <;> exact fun h => by cases h
  · cases h

end Ex
end Limabean
