/-
C81: parts of a ledger which have nothing to do with each other do not affect each other.
-/
import Verif.Proofs.PartsStep
import Verif.Props.C12
import Verif.Props.Examples

namespace Limabean

open Spec

variable {L : BookLib} {mine : Str → Bool} {part : Raw.Directive → Bool}

/-- The accounts which a ledger uses. -/
def Used (ds : List Raw.Directive) (a : Str) : Prop := ∃ d ∈ ds, a ∈ accountsOf d

theorem Spec.Apart.other {ds : List Raw.Directive} (h : Apart mine part ds) : Apart (fun a => !mine a) (fun d => !part d) ds where
  directives := fun d hd a ha => by rw [h.directives d hd a ha]
  below := fun d hd a ha e he b hb hab => by rw [h.below d hd a ha e he b hb hab]

theorem Spec.Apart.used {ds : List Raw.Directive} (h : Apart mine part ds) (a b : Str) (ha : Used ds a) (hb : Used ds b)
    (hab : Below a b) : mine a = mine b := by
  obtain ⟨d, hd, ha⟩ := ha
  obtain ⟨e, he, hb⟩ := hb
  exact h.below d hd a ha e he b hb hab

theorem inPart_at (part : Raw.Directive → Bool) (pre : List Raw.Directive) (d : Raw.Directive) (suf : List Raw.Directive) :
    inPart part (pre ++ d :: suf) pre.length = part d := by
  simp [inPart]

theorem positionIn_succ (part : Raw.Directive → Bool) (pre : List Raw.Directive) (d : Raw.Directive) (suf : List Raw.Directive) :
    positionIn part (pre ++ d :: suf) (pre.length + 1) = positionIn part (pre ++ d :: suf) pre.length + if part d then 1 else 0 := by
  have e1 : (pre ++ d :: suf).take pre.length = pre := by simp
  have e2 : (pre ++ d :: suf).take (pre.length + 1) = pre ++ [d] := by
    rw [List.take_append]; simp
  unfold positionIn
  rw [e1, e2, List.filter_append]
  cases h : part d <;> simp [h]

theorem Spec.Apart.here {pre suf : List Raw.Directive} {d : Raw.Directive} (h : Apart mine part (pre ++ d :: suf)) :
    ∀ a ∈ accountsOf d, mine a = inPart part (pre ++ d :: suf) pre.length ∧ Used (pre ++ d :: suf) a := by
  intro a ha
  rw [inPart_at]
  exact ⟨h.directives d (by simp) a ha, d, by simp, ha⟩

theorem SameEnv.refl {env : Env L} (hf : env.Fair) : SameEnv env env := ⟨rfl, rfl, hf, hf⟩

/-- What is true all along, of the whole and of the part. -/
structure Both (mine : Str → Bool) (part : Raw.Directive → Bool) (ds : List Raw.Directive) (n : Nat) (r : Run L) : Prop where
  inv : PartInv mine (inPart part ds) (Used ds) n r
  whole : FirstInv r
  kept : FirstInv (r.keep mine (inPart part ds))

theorem Both.init (ds : List Raw.Directive) : Both mine part ds 0 ({} : Run L) := ⟨.init, .init, .init⟩

theorem Both.mine_step (hL : L.Lawful) (hl : LooksAtItsAccounts L) {env : Env L} (hf : env.Fair) {pre suf : List Raw.Directive} {d : Raw.Directive}
    {r : Run L} (ha : Apart mine part (pre ++ d :: suf)) (h : Both mine part (pre ++ d :: suf) pre.length r) (hd : part d = true) :
    (r.keep mine (inPart part (pre ++ d :: suf))).step env pre.length d =
      (r.step env pre.length d).map (Run.keep mine (inPart part (pre ++ d :: suf))) :=
  h.inv.keep_step hL hl hf ha.used ha.here (by rw [inPart_at]; exact hd) h.whole.first h.kept.first

theorem Both.step (hL : L.Lawful) (hl : LooksAtItsAccounts L) {env : Env L} (hf : env.Fair) {pre suf : List Raw.Directive} {d : Raw.Directive}
    {r r' : Run L} (ha : Apart mine part (pre ++ d :: suf)) (h : Both mine part (pre ++ d :: suf) pre.length r)
    (hs : r.step env pre.length d = some r') : Both mine part (pre ++ d :: suf) (pre.length + 1) r' := by
  refine ⟨h.inv.step ha.here hs, h.whole.step hs, ?_⟩
  cases hd : part d with
  | true =>
    have := h.mine_step hL hl hf ha hd
    rw [hs] at this
    exact h.kept.step this
  | false =>
    rw [h.inv.keep_step_ne hL ha.here (by rw [inPart_at]; exact hd) hs]
    exact h.kept

/-- The loop over the part. -/
theorem Both.loop (hL : L.Lawful) (hl : LooksAtItsAccounts L) {env : Env L} (hf : env.Fair) {ds : List Raw.Directive}
    (ha : Apart mine part ds) (suf pre : List Raw.Directive) (he : ds = pre ++ suf) (r r' : Run L) (h : Both mine part ds pre.length r)
    (hr : Run.loop env pre.length suf r = some r') :
    Run.loop env (positionIn part ds pre.length) (suf.filter part) ((r.keep mine (inPart part ds)).rename (positionIn part ds)) =
      some ((r'.keep mine (inPart part ds)).rename (positionIn part ds)) ∧ Both mine part ds ds.length r' := by
  induction suf generalizing pre r with
  | nil =>
    simp only [Run.loop, Option.some.injEq] at hr
    subst hr
    simp only [List.append_nil] at he
    subst he
    exact ⟨rfl, h⟩
  | cons d suf ih =>
    subst he
    simp only [Run.loop] at hr
    cases hs : r.step env pre.length d with
    | none => rw [hs] at hr; cases hr
    | some r1 =>
      rw [hs] at hr
      have h1 := h.step hL hl hf ha hs
      have := ih (pre ++ [d]) (by simp) r1 (by simpa using h1) (by simpa using hr)
      refine ⟨?_, this.2⟩
      have this := this.1
      simp only [List.length_append, List.length_singleton] at this
      rw [positionIn_succ] at this
      cases hd : part d with
      | true =>
        simp only [hd, if_true] at this
        simp only [List.filter_cons, hd, if_true, Run.loop]
        rw [Run.rename_step _ (.refl hf), h.mine_step hL hl hf ha hd, hs]
        exact this
      | false =>
        simp only [hd, Bool.false_eq_true, if_false, Nat.add_zero] at this
        simp only [List.filter_cons, hd, Bool.false_eq_true, if_false]
        rw [← h.inv.keep_step_ne hL ha.here (by rw [inPart_at]; exact hd) hs]
        exact this

/-- If the loop panics, then so does that over the part or that over the rest. -/
theorem Both.panic (hL : L.Lawful) (hl : LooksAtItsAccounts L) {env : Env L} (hf : env.Fair) {ds : List Raw.Directive}
    (ha : Apart mine part ds) (suf pre : List Raw.Directive) (he : ds = pre ++ suf) (r : Run L) (h : Both mine part ds pre.length r)
    (h' : Both (fun a => !mine a) (fun d => !part d) ds pre.length r) (hr : Run.loop env pre.length suf r = none) :
    Run.loop env (positionIn part ds pre.length) (suf.filter part) ((r.keep mine (inPart part ds)).rename (positionIn part ds)) = none ∨
    Run.loop env (positionIn (fun d => !part d) ds pre.length) (suf.filter fun d => !part d)
      ((r.keep (fun a => !mine a) (inPart (fun d => !part d) ds)).rename (positionIn (fun d => !part d) ds)) = none := by
  induction suf generalizing pre r with
  | nil => cases hr
  | cons d suf ih =>
    subst he
    simp only [Run.loop] at hr
    cases hs : r.step env pre.length d with
    | none =>
      cases hd : part d with
      | true =>
        left
        simp only [List.filter_cons, hd, if_true, Run.loop]
        rw [Run.rename_step _ (.refl hf), h.mine_step hL hl hf ha hd, hs]
        rfl
      | false =>
        right
        simp only [List.filter_cons, hd, Bool.not_false, if_true, Run.loop]
        rw [Run.rename_step _ (.refl hf), h'.mine_step hL hl hf ha.other (by simp [hd]), hs]
        rfl
    | some r1 =>
      rw [hs] at hr
      have := ih (pre ++ [d]) (by simp) r1 (by simpa using h.step hL hl hf ha hs) (by simpa using h'.step hL hl hf ha.other hs)
        (by simpa using hr)
      simp only [List.length_append, List.length_singleton] at this
      rw [positionIn_succ, positionIn_succ] at this
      cases hd : part d with
      | true =>
        simp only [hd, if_true, Bool.not_true, Bool.false_eq_true, if_false, Nat.add_zero] at this
        refine this.imp ?_ ?_ <;> intro this
        · simp only [List.filter_cons, hd, if_true, Run.loop]
          rw [Run.rename_step _ (.refl hf), h.mine_step hL hl hf ha hd, hs]
          exact this
        · simp only [List.filter_cons, hd, Bool.not_true, Bool.false_eq_true, if_false]
          rw [← h'.inv.keep_step_ne hL ha.other.here (by rw [inPart_at]; simp [hd]) hs]
          exact this
      | false =>
        simp only [hd, Bool.not_false, if_true, Bool.false_eq_true, if_false, Nat.add_zero] at this
        refine this.imp ?_ ?_ <;> intro this
        · simp only [List.filter_cons, hd, Bool.false_eq_true, if_false]
          rw [← h.inv.keep_step_ne hL ha.here (by rw [inPart_at]; exact hd) hs]
          exact this
        · simp only [List.filter_cons, hd, Bool.not_false, if_true, Run.loop]
          rw [Run.rename_step _ (.refl hf), h'.mine_step hL hl hf ha.other (by simp [hd]), hs]
          exact this

/-! ### Left-over pads -/

theorem leftOver_keep {M : Str → Bool} {K : Nat → Bool} {c f : Nat → Nat} (m : AMap Str (Account L))
    (h : ∀ a x, (a, x) ∈ m → ∀ i e, x.pad = some (i, e) → K e.directive = M a) :
    ((AMap.mapV (Account.rename f) (AMap.mapV (Account.moved c) (AMap.only M m))).filterMap fun ca => ca.2.pad.map fun p => p.2.report .unusedNoBalance) =
      ((m.filterMap fun ca => ca.2.pad.map fun p => p.2.report .unusedNoBalance).filter fun r => K r.idx.directive).map (IndexedReport.rename f) := by
  induction m with
  | nil => rfl
  | cons ax m ih =>
    obtain ⟨a, x⟩ := ax
    have ih := ih fun a x hx => h a x (by simp [hx])
    have h0 := h a x (by simp)
    simp only [AMap.mapV, AMap.only, List.filter_cons] at ih ⊢
    cases hp : x.pad with
    | none =>
      cases hM : M a with
      | true =>
        simp only [if_true, List.map_cons, List.filterMap_cons, Account.moved, Account.rename, hp, Option.map_none]
        exact ih
      | false =>
        simp only [Bool.false_eq_true, if_false, List.filterMap_cons, hp, Option.map_none]
        exact ih
    | some p =>
      obtain ⟨i, e⟩ := p
      have hK := h0 i e hp
      cases hM : M a with
      | true =>
        rw [hM] at hK
        have hK' : K (e.report .unusedNoBalance).idx.directive = true := hK
        simp only [if_true, List.map_cons, List.filterMap_cons, Account.moved, Account.rename, hp, Option.map_some, List.filter_cons, hK']
        rw [← ElementIdx.rename_report]
        exact congrArg _ ih
      | false =>
        rw [hM] at hK
        have hK' : K (e.report .unusedNoBalance).idx.directive = false := hK
        simp only [Bool.false_eq_true, if_false, List.filterMap_cons, hp, Option.map_some, List.filter_cons, hK']
        exact ih

theorem Both.leftOver {env : Env L} (hf : env.Fair) {ds : List Raw.Directive} {n : Nat} {r : Run L} (h : Both mine part ds n r) :
    (((r.keep mine (inPart part ds)).rename (positionIn part ds)).st.leftOverPads env).Perm
      (((r.st.leftOverPads env).filter fun rep => inPart part ds rep.idx.directive).map (IndexedReport.rename (positionIn part ds))) := by
  unfold State.leftOverPads
  refine ((hf _).filterMap _).trans ?_
  have key := leftOver_keep (K := inPart part ds) (c := posIn (inPart part ds) r.booked) (f := positionIn part ds) (M := mine) r.st.accounts
    fun a x hx i e hp => h.inv.padAt (AMap.get_of_mem h.inv.st.wfA hx) hp
  have e0 : ((r.keep mine (inPart part ds)).rename (positionIn part ds)).st.accounts =
      AMap.mapV (Account.rename (positionIn part ds)) (AMap.mapV (Account.moved (posIn (inPart part ds) r.booked)) (AMap.only mine r.st.accounts)) := rfl
  rw [e0, key]
  exact ((((hf r.st.accounts).filterMap _).filter _).map _).symm

/-! ### The theorems -/

section
variable (L : BookLib) (hL : L.Lawful) (hl : LooksAtItsAccounts L) (order : AMap Str (Account L) → AMap Str (Account L))
  (hf : ∀ m, (order m).Perm m) (o : BookOptions) {ds : List Raw.Directive} (ha : Apart mine part ds)
include hL hl hf ha

/-- The run over the part, from that over the whole. -/
theorem part_loop {r : Run L} (hr : Run.loop (envOf L o order) 0 ds {} = some r) :
    Run.loop (envOf L o order) 0 (ds.filter part) {} = some ((r.keep mine (inPart part ds)).rename (positionIn part ds)) ∧
      Both mine part ds ds.length r :=
  Both.loop hL hl (env := envOf L o order) hf ha ds [] rfl {} r (.init ds) hr

theorem part_validate {r : Run L} (h : Both mine part ds ds.length r) :
    (∀ out w, r.validate (envOf L o order) = .success out w →
      ((r.keep mine (inPart part ds)).rename (positionIn part ds)).validate (envOf L o order) =
        .success ((out.filter fun d => inPart part ds d.idx).map (Booked.Directive.rename (positionIn part ds)))
          ((w.filter fun rep => inPart part ds rep.idx.directive).map (IndexedReport.rename (positionIn part ds)))) ∧
    (((r.keep mine (inPart part ds)).rename (positionIn part ds)).validate (envOf L o order)).reports.Perm
      (((r.validate (envOf L o order)).reports.filter fun rep => inPart part ds rep.idx.directive).map
        (IndexedReport.rename (positionIn part ds))) := by
  have hlo := h.leftOver (env := envOf L o order) hf
  have hall : (((r.keep mine (inPart part ds)).rename (positionIn part ds)).errors ++
      ((r.keep mine (inPart part ds)).rename (positionIn part ds)).st.leftOverPads (envOf L o order)).Perm
      (((r.errors ++ r.st.leftOverPads (envOf L o order)).filter fun rep => inPart part ds rep.idx.directive).map
        (IndexedReport.rename (positionIn part ds))) := by
    rw [List.filter_append, List.map_append]
    exact List.Perm.append (.refl _) hlo
  have hrep : ∀ r : Run L, (r.validate (envOf L o order)).reports = r.errors ++ r.st.leftOverPads (envOf L o order) := by
    intro r
    unfold Run.validate
    simp only
    split
    · rename_i h
      simpa [Outcome.reports] using (List.isEmpty_iff.1 h).symm
    · rfl
  constructor
  · intro out w hv
    unfold Run.validate at hv
    simp only at hv
    split at hv
    · rename_i hemp
      cases hv
      rw [List.isEmpty_iff.1 hemp] at hall
      have := hall.eq_nil
      unfold Run.validate
      simp only
      rw [if_pos (List.isEmpty_iff.2 this)]
      rfl
    · cases hv
  · rw [hrep, hrep]
    exact hall

/-- C81: booking panics on a ledger exactly if it panics on one of the parts. -/
theorem C81_panics :
    book L order o ds = .panic ↔ book L order o (ds.filter part) = .panic ∨ book L order o (ds.filter fun d => !part d) = .panic := by
  have hp : ∀ l, book L order o l = .panic ↔ Run.loop (envOf L o order) 0 l {} = none := by
    intro l
    unfold book collect
    cases h : Run.loop (envOf L o order) 0 l {} with
    | none => simp
    | some r =>
      simp only [reduceCtorEq, iff_false]
      unfold Run.validate
      simp only
      split <;> simp
  rw [hp, hp, hp]
  constructor
  · intro h
    exact Both.panic hL hl (env := envOf L o order) hf ha ds [] rfl {} (.init ds) (.init ds) h
  · intro h
    cases hr : Run.loop (envOf L o order) 0 ds {} with
    | none => rfl
    | some r =>
      rcases h with h | h
      · rw [(part_loop L hL hl order hf o ha hr).1] at h; cases h
      · rw [(part_loop L hL hl order hf o ha.other hr).1] at h; cases h

/-- C81: what an accepted ledger yields for the part is what the part yields by itself: the directives and the warnings are those
at the positions of the part, in the same order. -/
theorem C81_returned {out : List Booked.Directive} {w : List IndexedReport} (h : book L order o ds = .success out w) :
    book L order o (ds.filter part) =
      .success ((out.filter fun d => inPart part ds d.idx).map (Booked.Directive.rename (positionIn part ds)))
        ((w.filter fun rep => inPart part ds rep.idx.directive).map (IndexedReport.rename (positionIn part ds))) := by
  unfold book collect at h ⊢
  cases hr : Run.loop (envOf L o order) 0 ds {} with
  | none => rw [hr] at h; cases h
  | some r =>
    rw [hr] at h
    obtain ⟨h1, h2⟩ := part_loop L hL hl order hf o ha hr
    rw [h1]
    exact (part_validate L hL hl order hf o ha h2).1 out w h

/-- C81: the reports on a part are those of the whole at the positions of the part. -/
theorem C81_reports (h : book L order o ds ≠ .panic) :
    (book L order o (ds.filter part)).reports.Perm
      (((book L order o ds).reports.filter fun rep => inPart part ds rep.idx.directive).map (IndexedReport.rename (positionIn part ds))) := by
  unfold book collect at h ⊢
  cases hr : Run.loop (envOf L o order) 0 ds {} with
  | none => rw [hr] at h; exact absurd rfl h
  | some r =>
    obtain ⟨h1, h2⟩ := part_loop L hL hl order hf o ha hr
    rw [h1]
    exact (part_validate L hL hl order hf o ha h2).2

omit hL hl hf ha in
theorem success_iff_reports (l : List Raw.Directive) :
    (∃ out w, book L order o l = .success out w) ↔ book L order o l ≠ .panic ∧ (book L order o l).reports = [] := by
  cases h : book L order o l with
  | success out w => simp [Outcome.reports]
  | panic => simp
  | failure es =>
    have : es ≠ [] := by
      rintro rfl
      unfold book collect at h
      cases hr : Run.loop (envOf L o order) 0 l {} with
      | none => rw [hr] at h; cases h
      | some r =>
        rw [hr] at h
        unfold Run.validate at h
        simp only at h
        split at h
        · cases h
        · rename_i hne
          simp only [Outcome.failure.injEq] at h
          exact hne (by rw [h]; rfl)
    simp [Outcome.reports, this]

/-- C81: a ledger is accepted exactly if both parts are. -/
theorem C81_accepted :
    (∃ out w, book L order o ds = .success out w) ↔
      (∃ out w, book L order o (ds.filter part) = .success out w) ∧ (∃ out w, book L order o (ds.filter fun d => !part d) = .success out w) := by
  constructor
  · rintro ⟨out, w, h⟩
    exact ⟨⟨_, _, C81_returned L hL hl order hf o ha h⟩, ⟨_, _, C81_returned L hL hl order hf o ha.other h⟩⟩
  · rintro ⟨h1, h2⟩
    rw [success_iff_reports] at h1 h2 ⊢
    have hp : book L order o ds ≠ .panic := fun h => by
      rcases (C81_panics L hL hl order hf o ha).1 h with h | h
      · exact h1.1 h
      · exact h2.1 h
    refine ⟨hp, ?_⟩
    have g1 := C81_reports L hL hl order hf o ha hp
    have g2 := C81_reports L hL hl order hf o ha.other hp
    rw [h1.2] at g1
    rw [h2.2] at g2
    have g1 := List.map_eq_nil_iff.1 g1.symm.eq_nil
    have g2 := List.map_eq_nil_iff.1 g2.symm.eq_nil
    cases hes : book L order o ds with
    | panic => exact absurd hes hp
    | success out w => rfl
    | failure es =>
      rw [hes] at g1 g2
      show es = []
      apply List.eq_nil_iff_forall_not_mem.2
      intro rep hrep
      have k1 := List.filter_eq_nil_iff.1 g1 rep hrep
      have k2 := List.filter_eq_nil_iff.1 g2 rep hrep
      have hlt : rep.idx.directive < ds.length :=
        ((C14_locations L order hf o ds).1 es hes rep hrep).1.1
      unfold inPart at k1 k2
      rw [List.getElem?_eq_getElem hlt] at k1 k2
      simp_all

end

theorem Toy.lib_looks : LooksAtItsAccounts Toy.lib := by
  intro date ps tol inv inv' method method' h
  show Toy.bookAll date ps tol inv method = Toy.bookAll date ps tol inv' method'
  unfold Toy.bookAll
  split
  · simp only [Except.ok.injEq, Bookings.mk.injEq, true_and]
    apply List.map_congr_left
    intro a ha
    obtain ⟨p, hp, rfl⟩ := List.mem_map.1 (List.mem_dedup.1 ha)
    rw [(h p hp).1, (h p hp).2]
  · rfl

namespace Ex

open Toy

/-- The one part: a bank account, padded from equity. -/
def oneAccount (a : Str) : Bool := a == bank || a == equity || a == current

/-- The directives of that part. -/
def onePart (d : Raw.Directive) : Bool := (accountsOf d).any oneAccount

/-- Two parts, one within the other: the second has a wrong assertion, a posting to an account which is not open, and a pad which is not
used. -/
def twoParts : List Raw.Directive :=
  [ mkOpen 1 equity, mkOpen 1 bank2, mkOpen 1 bank, mkOpen 1 food, mkPad 2 bank equity, mkTxn 2 [(bank2, ⟨-5, 0⟩, nzd), (food, ⟨5, 0⟩, nzd)],
    mkPad 3 bank2 food, mkBal 3 bank ⟨10, 0⟩ nzd, mkBal 4 food ⟨6, 0⟩ nzd, mkTxn 5 [(bank, ⟨1, 0⟩, nzd), (current, ⟨-1, 0⟩, nzd)],
    mkBal 6 bank ⟨12, 0⟩ nzd ]

theorem twoParts_apart : Apart oneAccount onePart twoParts := ⟨by decide +kernel, by decide +kernel⟩

/-- The hypotheses are met, and there are reports on both parts, at positions which differ from those in the part. -/
example : Apart oneAccount onePart twoParts ∧ LooksAtItsAccounts lib ∧ (run twoParts).reports.map (fun r => r.idx.directive) = [8, 9, 10, 6] ∧
    (run (twoParts.filter onePart)).reports.map (fun r => r.idx.directive) = [4, 5] ∧
    (run (twoParts.filter fun d => !onePart d)).reports.map (fun r => r.idx.directive) = [4, 3] ∧
    positionIn onePart twoParts 9 = 4 ∧ positionIn onePart twoParts 10 = 5 :=
  ⟨twoParts_apart, lib_looks, by decide +kernel⟩

/-- Accepted parts within each other. -/
def twoAccepted : List Raw.Directive :=
  [ mkOpen 1 equity, mkOpen 1 bank2, mkOpen 1 bank, mkOpen 1 food, mkPad 2 bank equity, mkTxn 2 [(bank2, ⟨-5, 0⟩, nzd), (food, ⟨5, 0⟩, nzd)],
    mkBal 3 bank ⟨10, 0⟩ nzd, mkBal 4 food ⟨5, 0⟩ nzd ]

example : Apart oneAccount onePart twoAccepted ∧
    (match run twoAccepted with | .success out _ => out.map (fun d => d.idx) | _ => []) = [0, 1, 2, 3, 4, 4, 5, 6, 7] ∧
    (match run (twoAccepted.filter onePart) with | .success out _ => out.map (fun d => d.idx) | _ => []) = [0, 1, 2, 2, 3] :=
  ⟨⟨by decide +kernel, by decide +kernel⟩, by decide +kernel⟩

/-- An account below another is not apart from it: what is posted to it counts in assertions of the other. -/
def belowParts : List Raw.Directive :=
  [ mkOpen 1 bank, mkOpen 1 current, mkOpen 1 food, mkTxn 2 [(current, ⟨5, 0⟩, nzd), (food, ⟨-5, 0⟩, nzd)], mkBal 3 bank ⟨0, 0⟩ nzd ]

example : (∀ d ∈ belowParts, ∀ a ∈ accountsOf d, (a == bank) = (accountsOf d).any (· == bank)) ∧
    (run belowParts).reports.length = 1 ∧
    (run (belowParts.filter fun d => (accountsOf d).any (· == bank))).reports = [] ∧
    (run (belowParts.filter fun d => !(accountsOf d).any (· == bank))).reports = [] := by decide +kernel

end Ex
end Limabean
