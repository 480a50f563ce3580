/-
C106: a ledger can be continued from its balances.
-/
import Verif.Proofs.ContinuedRun
import Verif.Props.C103
import Verif.Props.C105

namespace Limabean

open Spec

/-- **C106**: for every two ledgers which are accepted, such that the second may stand for the first (it leaves the accounts which are used
afterwards in the same way, with holdings which are alike to the booking library, and has posted the same to the accounts on which there are
assertions afterwards): whatever follows, with faults or without, the same happens after both. It crashes after both; or it is accepted after
both, and the same directives and warnings are added to those of the ledgers; or there are faults, and these are the same. -/
theorem C106 (L : BookLib) (hL : L.Lawful) (order : AMap Str (Account L) → AMap Str (Account L)) (hf : ∀ m, (order m).Perm m) (o : BookOptions)
    (alike : L.Pos → L.Pos → Prop) (old opening rest : List Raw.Directive) (out out' : List Booked.Directive) (w w' : List IndexedReport)
    (h : book L order o old = .success out w) (h' : book L order o opening = .success out' w')
    (hs : StandsFor L o alike old opening out out' rest) (hc : Carries L o.tolerance alike rest) :
    SameAfter old.length opening.length out out' w w' (book L order o (old ++ rest)) (book L order o (opening ++ rest)) := by
  obtain ⟨s, hr, hl, hp, ht, hfi⟩ := accepted_led hL hf h
  obtain ⟨s', hr', hl', hp', ht', hfi'⟩ := accepted_led hL hf h'
  obtain ⟨-, hout, hw⟩ := (C82_returned L hL order hf o old out w).1 h
  obtain ⟨-, hout', hw'⟩ := (C82_returned L hL order hf o opening out' w').1 h'
  let A : Str → Prop := fun a => ∃ d ∈ rest, a ∈ accountsOf d
  have hcont : Cont old.length opening.length A alike s s' := by
    refine hl.cont hl' hp hp' (fun a ha => ?_) fun a ha p q hx hy => ?_
    · obtain ⟨d, hd, had⟩ := ha
      exact hs.accounts d hd a had
    · obtain ⟨d, hd, had⟩ := ha
      exact hs.held d hd a had p q (by simp [holdings, hr, hx]) (by simp [holdings, hr', hy])
  obtain ⟨g1, g2, g3⟩ := hcont.run hL hc (option := o.bookingMethod) rest (fun d hd => hd) (fun d hd a ha => ⟨d, hd, ha⟩)
    (fun d hd b hb => by rw [ht, ht', hs.asserted d hd b hb]) 0
  simp only [Nat.add_zero] at g1 g2 g3
  have hrun : Tally.run o.bookingMethod o.tolerance 0 (Tally.init L) (old ++ rest) =
      Tally.run o.bookingMethod o.tolerance old.length s rest := by
    rw [Tally.run_append, hr]
    simp only [Nat.zero_add, List.nil_append]
    cases Tally.run o.bookingMethod o.tolerance old.length s rest <;> rfl
  have hrun' : Tally.run o.bookingMethod o.tolerance 0 (Tally.init L) (opening ++ rest) =
      Tally.run o.bookingMethod o.tolerance opening.length s' rest := by
    rw [Tally.run_append, hr']
    simp only [Nat.zero_add, List.nil_append]
    cases Tally.run o.bookingMethod o.tolerance opening.length s' rest <;> rfl
  have hb := C75_reports L hL order hf o (old ++ rest)
  have hb' := C75_reports L hL order hf o (opening ++ rest)
  have ha : audit L o.bookingMethod o.tolerance (old ++ rest) =
      (Tally.run o.bookingMethod o.tolerance old.length s rest).map fun r => (r.2, r.1.unbalanced) := by rw [audit, hrun]
  have ha' : audit L o.bookingMethod o.tolerance (opening ++ rest) =
      (Tally.run o.bookingMethod o.tolerance opening.length s' rest).map fun r => (r.2, r.1.unbalanced) := by rw [audit, hrun']
  have hback := C82_returned L hL order hf o (old ++ rest)
  have hback' := C82_returned L hL order hf o (opening ++ rest)
  have hmore : returned L o.bookingMethod o.tolerance (old ++ rest) = out ++ returnedOf o.bookingMethod o.tolerance (Tally.history o.bookingMethod o.tolerance old.length s rest) := by
    rw [hout]
    refine returned_append _ _ _ _ hr hfi (fun f hf => ?_) fun d hd => ?_
    · obtain ⟨i, hi, e⟩ := List.getElem_of_mem hf
      have := (List.forall₂_iff_get.1 g3).2 i hi ((List.forall₂_iff_get.1 g3).1 ▸ hi)
      obtain ⟨⟨j, hj, -⟩, -⟩ := this
      simp only [List.get_eq_getElem] at hj
      rw [← e, hj]; omega
    · obtain ⟨i, hi, e⟩ := List.getElem_of_mem hd
      have := (List.forall₂_iff_get.1 g2).2 i hi ((List.forall₂_iff_get.1 g2).1 ▸ hi)
      obtain ⟨j, hj, -⟩ := this.idx
      simp only [List.get_eq_getElem] at hj
      rw [← e, hj]; omega
  have hmore' : returned L o.bookingMethod o.tolerance (opening ++ rest) = out' ++ returnedOf o.bookingMethod o.tolerance (Tally.history o.bookingMethod o.tolerance opening.length s' rest) := by
    rw [hout']
    refine returned_append _ _ _ _ hr' hfi' (fun f hf => ?_) fun d hd => ?_
    · obtain ⟨i, hi, e⟩ := List.getElem_of_mem hf
      have := (List.forall₂_iff_get.1 g3).2 i ((List.forall₂_iff_get.1 g3).1.symm ▸ hi) hi
      obtain ⟨⟨j, -, hj⟩, -⟩ := this
      simp only [List.get_eq_getElem] at hj
      rw [← e, hj]; omega
    · obtain ⟨i, hi, e⟩ := List.getElem_of_mem hd
      have := (List.forall₂_iff_get.1 g2).2 i ((List.forall₂_iff_get.1 g2).1.symm ▸ hi) hi
      obtain ⟨j, -, hj⟩ := this.idx
      simp only [List.get_eq_getElem] at hj
      rw [← e, hj]; omega
  have hret : List.Forall₂ (AlikeBooked old.length opening.length)
      (returnedOf o.bookingMethod o.tolerance (Tally.history o.bookingMethod o.tolerance old.length s rest))
      (returnedOf o.bookingMethod o.tolerance (Tally.history o.bookingMethod o.tolerance opening.length s' rest)) := by
    unfold returnedOf
    refine List.forall₂_map_left_iff.2 (List.forall₂_map_right_iff.2 ?_)
    exact g2.imp fun _ _ hx => fillIn_alike g3 hx
  have hwarn := warned_append (L := L) old rest
  have hwarn' := warned_append (L := L) opening rest
  rw [← hw] at hwarn
  rw [← hw'] at hwarn'
  generalize Tally.run o.bookingMethod o.tolerance old.length s rest = x at *
  generalize Tally.run o.bookingMethod o.tolerance opening.length s' rest = y at *
  cases g1 with
  | crash =>
    rw [ha] at hb
    rw [ha'] at hb'
    simp only [Option.map_none] at hb hb'
    rw [hb, hb']
    exact .panic
  | @fine t t' fs fs' hct hfs =>
    obtain ⟨xs, hxs1, hxs2⟩ := hct.unbalanced
    simp only [Option.map_some] at ha ha'
    by_cases hnil : fs = [] ∧ t.unbalanced = []
    · obtain ⟨e1, e2⟩ := hnil
      have e3 : fs' = [] := by rw [e1] at hfs; cases hfs; rfl
      have e4 : t'.unbalanced = [] := by
        rw [e2] at hxs2
        cases hxs2
        exact hxs1.eq_nil
      rw [(hback _ _).2 ⟨by rw [ha, e1, e2], hmore.symm, hwarn.symm⟩, (hback' _ _).2 ⟨by rw [ha', e3, e4], hmore'.symm, hwarn'.symm⟩]
      exact .success _ _ _ _ hret (warned_alike _ _ _)
    · have hnil' : ¬ (fs' = [] ∧ t'.unbalanced = []) := by
        rintro ⟨e3, e4⟩
        refine hnil ⟨?_, ?_⟩
        · rw [e3] at hfs; cases hfs; rfl
        · rw [e4] at hxs1
          rw [hxs1.symm.eq_nil] at hxs2
          generalize t.unbalanced = z at *
          cases hxs2; rfl
      have fails : ∀ {ds : List Raw.Directive} {gs us : List Finding}, audit L o.bookingMethod o.tolerance ds = some (gs, us) → ¬ (gs = [] ∧ us = []) →
          ∃ xs ys ys', book L order o ds = .failure (xs ++ ys') ∧ ys'.Perm ys ∧ List.Forall₂ Announces xs gs ∧ List.Forall₂ Announces ys us := by
        intro ds gs us h1 h2
        have h3 := C75_reports L hL order hf o ds
        rw [h1] at h3
        cases gs with
        | nil =>
          cases us with
          | nil => exact absurd ⟨rfl, rfl⟩ h2
          | cons u us => exact h3
        | cons g gs => exact h3
      obtain ⟨a1, b1, c1, d1, p1, q1, r1⟩ := fails ha hnil
      obtain ⟨a2, b2, c2, d2, p2, q2, r2⟩ := fails ha' hnil'
      obtain ⟨b3, q3, p3⟩ := announced_perm hxs1.symm r2
      rw [d1, d2]
      exact .failure _ _ (a1 ++ b1) (a2 ++ b3) (p1.append_left _) ((p2.trans p3.symm).append_left _)
        (List.rel_append (SameFinding.allTold hfs q1 q2) (SameFinding.allTold hxs2 r1 q3))

/-- C106 where the transactions of the rest do not depend on what is held: then only accounts and balances have to be the same. -/
theorem C106_plain (L : BookLib) (hL : L.Lawful) (order : AMap Str (Account L) → AMap Str (Account L)) (hf : ∀ m, (order m).Perm m) (o : BookOptions)
    (old opening rest : List Raw.Directive) (out out' : List Booked.Directive) (w w' : List IndexedReport)
    (h : book L order o old = .success out w) (h' : book L order o opening = .success out' w')
    (accounts : ∀ d ∈ rest, ∀ a ∈ accountsOf d, LeftAlike (life old a) (life opening a))
    (asserted : ∀ d ∈ rest, ∀ b, d.variant = .balance b → rolledUp out b.acc b.cur = rolledUp out' b.acc b.cur)
    (hc : Carries L o.tolerance (fun _ _ => True) rest) :
    SameAfter old.length opening.length out out' w w' (book L order o (old ++ rest)) (book L order o (opening ++ rest)) :=
  C106 L hL order hf o _ old opening rest out out' w w' h h' ⟨accounts, fun _ _ _ _ _ _ _ _ => trivial, asserted⟩ hc

/-- C106: what follows is accepted after one ledger exactly if it is accepted after the other. -/
theorem C106_accepted (L : BookLib) (hL : L.Lawful) (order : AMap Str (Account L) → AMap Str (Account L)) (hf : ∀ m, (order m).Perm m) (o : BookOptions)
    (alike : L.Pos → L.Pos → Prop) (old opening rest : List Raw.Directive) (out out' : List Booked.Directive) (w w' : List IndexedReport)
    (h : book L order o old = .success out w) (h' : book L order o opening = .success out' w')
    (hs : StandsFor L o alike old opening out out' rest) (hc : Carries L o.tolerance alike rest) :
    (∃ x v, book L order o (old ++ rest) = .success x v) ↔ ∃ x v, book L order o (opening ++ rest) = .success x v := by
  have := C106 L hL order hf o alike old opening rest out out' w w' h h' hs hc
  generalize book L order o (old ++ rest) = x at *
  generalize book L order o (opening ++ rest) = y at *
  cases this <;> simp

namespace Toy

theorem heldAfter_some {L : BookLib} (us : List (Str × L.Pos)) (held : Str → Option L.Pos) (a : Str) (h : a ∈ us.map Prod.fst) :
    (heldAfter held us a).isSome := by
  unfold heldAfter
  induction us using List.reverseRecOn with
  | nil => simp at h
  | append_singleton us u ih =>
    rw [List.foldl_append]
    by_cases ha : a = u.1
    · subst ha; simp
    · simp only [List.foldl_cons, List.foldl_nil, Function.update_of_ne ha]
      refine ih ?_
      simpa [ha] using h

/-- To the toy library all holdings are alike. -/
theorem lib_carries (tol : Tolerance) (rest : List Raw.Directive) : Carries lib tol (fun _ _ => True) rest := by
  refine ⟨trivial, fun _ _ _ _ _ _ _ => trivial, fun d _ t _ held held' method method' _ => ?_⟩
  simp only [lib, bookAll]
  by_cases hc : complete t.postings = true
  · simp only [hc, if_true]
    refine .booked _ _ _ fun p hp => ?_
    have hx : ∀ (g : Str → Pos), p.acc ∈ ((t.postings.map fun p => p.acc).dedup.map fun a => (a, g a)).map Prod.fst := by
      intro g
      rw [List.map_map]
      have : (Prod.fst ∘ fun a => (a, g a)) = id := rfl
      rw [this, List.map_id, List.mem_dedup]
      exact List.mem_map_of_mem hp
    have h1 := heldAfter_some (L := lib) _ held _ (hx fun a => applyAll (method a) a ((held a).getD []) t.postings (t.postings.map (interpolate d.date (residual t.postings))))
    have h2 := heldAfter_some (L := lib) _ held' _ (hx fun a => applyAll (method' a) a ((held' a).getD []) t.postings (t.postings.map (interpolate d.date (residual t.postings))))
    obtain ⟨u, hu⟩ := Option.isSome_iff_exists.1 h1
    obtain ⟨v, hv⟩ := Option.isSome_iff_exists.1 h2
    simp only [lib] at hu hv
    rw [hu, hv]
    exact .some trivial
  · simp only [hc]
    exact .refused _

end Toy

namespace Ex

open Toy

/-- A year. -/
def lastYear : List Raw.Directive :=
  [mkOpen 1 equity, mkOpen 1 bank (some [nzd]), mkOpen 1 food, mkTxn 2 [(bank, ⟨100, 0⟩, nzd), (equity, ⟨-100, 0⟩, nzd)],
    mkTxn 3 [(food, ⟨20, 0⟩, nzd), (bank, ⟨-20, 0⟩, nzd)], mkTxn 4 [(food, ⟨15, 0⟩, nzd), (bank, ⟨-15, 0⟩, nzd)]]

/-- The bank account with its balance at the end of the year, which came from elsewhere. -/
def broughtForward : List Raw.Directive :=
  [mkOpen 5 (str% "Equity:Earlier"), mkOpen 5 bank (some [nzd]), mkOpen 5 food, mkOpen 5 equity,
    mkTxn 5 [(bank, ⟨650, 1⟩, nzd), (str% "Equity:Earlier", ⟨-650, 1⟩, nzd)]]

/-- Another year, without fault. -/
def thisYear : List Raw.Directive :=
  [mkBal 6 bank ⟨65, 0⟩ nzd, mkTxn 7 [(food, ⟨5, 0⟩, nzd), (bank, ⟨-5, 0⟩, nzd)], mkPad 8 bank equity, mkBal 9 bank ⟨50, 0⟩ nzd]

/-- Another year, with faults: the bank is opened again, it does not hold what is asserted, and it takes no other currency; a pad is left over. -/
def worseYear : List Raw.Directive :=
  [mkOpen 6 bank, mkBal 7 bank ⟨60, 0⟩ nzd, mkTxn 8 [(food, ⟨5, 0⟩, str% "USD"), (bank, ⟨-5, 0⟩, str% "USD")], mkPad 9 food equity]

/-- The two years, or the one from its opening balance. -/
example : bookedAt (run (lastYear ++ thisYear)) = bookedAt (run lastYear) ++
      [(6, day 6, []), (7, day 7, [(food, ⟨5, 0⟩), (bank, ⟨-5, 0⟩)]), (8, day 8, []), (8, day 8, [(bank, ⟨-10, 0⟩), (equity, ⟨10, 0⟩)]),
        (9, day 9, [])] ∧
    bookedAt (run (broughtForward ++ thisYear)) = bookedAt (run broughtForward) ++
      [(5, day 6, []), (6, day 7, [(food, ⟨5, 0⟩), (bank, ⟨-5, 0⟩)]), (7, day 8, []), (7, day 8, [(bank, ⟨-100, 1⟩), (equity, ⟨100, 1⟩)]),
        (8, day 9, [])] ∧
    placed (run (lastYear ++ worseYear)) =
      [(6, .alreadyOpened), (7, .accumulated ⟨65, 0⟩ ⟨-5, 0⟩ nzd), (8, .currencyIncompatible), (9, .unusedNoBalance)] ∧
    placed (run (broughtForward ++ worseYear)) =
      [(5, .alreadyOpened), (6, .accumulated ⟨650, 1⟩ ⟨-50, 1⟩ nzd), (7, .currencyIncompatible), (8, .unusedNoBalance)] := by
  refine ⟨?_, ?_, ?_, ?_⟩ <;> decide +kernel

/-- The conditions of the theorem hold, for both years. -/
example : ∀ rest ∈ [thisYear, worseYear], ∃ out out', run lastYear = .success out [] ∧ run broughtForward = .success out' [] ∧
    StandsFor lib {} (fun _ _ => True) lastYear broughtForward out out' rest := by
  have e : ∀ x : Outcome, (∃ out, x = .success out []) ↔ x = .success (match x with | .success out _ => out | _ => []) [] := by
    intro x
    constructor
    · rintro ⟨out, rfl⟩; rfl
    · exact fun h => ⟨_, h⟩
  intro rest hr
  refine ⟨_, _, (e (run lastYear)).1 ?_, (e (run broughtForward)).1 ?_, ?_, fun _ _ _ _ _ _ _ _ => trivial, ?_⟩
  · simp only [List.mem_cons, List.not_mem_nil, or_false] at hr
    rcases hr with rfl | rfl <;> exact ⟨_, rfl⟩
  · simp only [List.mem_cons, List.not_mem_nil, or_false] at hr
    rcases hr with rfl | rfl <;> exact ⟨_, rfl⟩
  · have key : ∀ a ∈ [bank, food, equity], LeftAlike (life lastYear a) (life broughtForward a) := by
      intro a ha
      simp only [List.mem_cons, List.not_mem_nil, or_false] at ha
      rcases ha with rfl | rfl | rfl <;> exact .opn _ _ rfl rfl
    have sub : ∀ rest ∈ [thisYear, worseYear], ∀ d ∈ rest, ∀ a ∈ accountsOf d, a ∈ [bank, food, equity] := by decide +kernel
    exact fun d hd a ha => key a (sub rest hr d hd a ha)
  · have key : ∀ rest ∈ [thisYear, worseYear], ∀ d ∈ rest, ∀ b, d.variant = .balance b → b.acc = bank ∧ b.cur = nzd := by
      intro rest hr d hd b hb
      simp only [List.mem_cons, List.not_mem_nil, or_false, thisYear, worseYear] at hr
      rcases hr with rfl | rfl <;> simp only [List.mem_cons, List.not_mem_nil, or_false] at hd <;>
        rcases hd with rfl | rfl | rfl | rfl <;> cases hb <;> exact ⟨rfl, rfl⟩
    intro d hd b hb
    rw [(key rest hr d hd b hb).1, (key rest hr d hd b hb).2]
    have units : ∀ out, rolledUp out bank nzd =
        ((((postings out).filter fun p => decide (Below bank p.acc ∧ p.cur = nzd)).map fun p => p.units).map Dec.val).sum := by
      intro out; simp only [rolledUp, sumUnits, List.map_map]; rfl
    rw [units, units]
    have e1 : (((postings (match run lastYear with | .success out _ => out | _ => [])).filter fun p => decide (Below bank p.acc ∧ p.cur = nzd)).map
        fun p => p.units) = [⟨100, 0⟩, ⟨-20, 0⟩, ⟨-15, 0⟩] := by decide +kernel
    have e2 : (((postings (match run broughtForward with | .success out _ => out | _ => [])).filter fun p => decide (Below bank p.acc ∧ p.cur = nzd)).map
        fun p => p.units) = [⟨650, 1⟩] := by decide +kernel
    rw [e1, e2]
    norm_num [Dec.val]

end Ex

end Limabean
