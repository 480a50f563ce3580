/-
C113: what counts is what transactions move in all.
-/
import Verif.Proofs.MovesLemmas
import Verif.Proofs.PrefixLemmas
import Verif.Props.C107

namespace Limabean

open Spec

/-- Transactions written in full are accepted after a ledger and returned as they are written. -/
theorem C113_accepted (L : BookLib) (hL : L.Lawful) (order : AMap Str (Account L) → AMap Str (Account L)) (hf : ∀ m, (order m).Perm m) (o : BookOptions)
    (alike : L.Pos → L.Pos → Prop) (hb : BooksInFull L o.tolerance alike) (old ts : List Raw.Directive) (out : List Booked.Directive)
    (w : List IndexedReport) (h : book L order o old = .success out w) (ht : ∀ d ∈ ts, FullTransaction old d) :
    book L order o (old ++ ts) = .success (out ++ allAsWritten old.length ts) w := by
  obtain ⟨s, hr, hl, hp, -, hfi⟩ := accepted_led hL hf h
  obtain ⟨-, hout, hw⟩ := (C82_returned L hL order hf o old out w).1 h
  obtain ⟨s', g1, g2, g3, g4, -⟩ := FullTransaction.run (option := o.bookingMethod) hL hb ts hl hp ht
  refine (C82_returned L hL order hf o _ _ _).2 ⟨?_, ?_, ?_⟩
  · unfold audit
    rw [Tally.run_append, hr]
    simp only [Nat.zero_add, g1, List.append_nil, Option.map_some, Option.some.injEq, Prod.mk.injEq, true_and]
    unfold Tally.unbalanced
    rw [List.filterMap_eq_nil_iff]
    intro a _
    rw [g2]; rfl
  · rw [returned_append _ _ _ _ hr hfi (by rw [g3]; simp) (emitted_from _ _ _ _ _), hout]
    congr 1
    unfold returnedOf
    unfold filled at g3
    unfold emitted at g4
    rw [g3, g4]
    have : fillIn [] = id := by
      funext d
      exact fillIn_other [] (by simp)
    rw [this, List.map_id]
  · rw [warned_append, ← hw]
    have : (ts.zipIdx old.length).flatMap (fun d => warns L d.2 d.1) = [] := by
      rw [List.flatMap_eq_nil_iff]
      intro d hd
      obtain ⟨t, hv⟩ := (ht d.1 (List.fst_mem_of_mem_zipIdx hd)).transaction
      simp [warns, hv]
    rw [this, List.append_nil]

/-- **C113**: for every ledger which is accepted, and any two lists of transactions written in full which fit it and move the same in all, to each
account in each currency: both are accepted after it, and returned as they are written. The accounts have the same balances. And whatever
follows, the same happens after both: it is accepted after both, and the same is added; or there are faults, and these are the same. -/
theorem C113 (L : BookLib) (hL : L.Lawful) (order : AMap Str (Account L) → AMap Str (Account L)) (hf : ∀ m, (order m).Perm m) (o : BookOptions)
    (alike : L.Pos → L.Pos → Prop) (hb : BooksInFull L o.tolerance alike) (old ts us : List Raw.Directive) (out : List Booked.Directive)
    (w : List IndexedReport) (h : book L order o old = .success out w) (ht : ∀ d ∈ ts, FullTransaction old d) (hu : ∀ d ∈ us, FullTransaction old d)
    (hm : ∀ acc cur, moved ts acc cur = moved us acc cur) :
    ∃ out₁ out₂, book L order o (old ++ ts) = .success out₁ w ∧ book L order o (old ++ us) = .success out₂ w ∧
      out₁ = out ++ allAsWritten old.length ts ∧ out₂ = out ++ allAsWritten old.length us ∧
      (∀ acc cur, posted out₁ acc cur = posted out₂ acc cur ∧ rolledUp out₁ acc cur = rolledUp out₂ acc cur) ∧
      ∀ rest, Carries L o.tolerance alike rest →
        SameAfter (old ++ ts).length (old ++ us).length out₁ out₂ w w (book L order o (old ++ ts ++ rest)) (book L order o (old ++ us ++ rest)) := by
  have h1 := C113_accepted L hL order hf o alike hb old ts out w h ht
  have h2 := C113_accepted L hL order hf o alike hb old us out w h hu
  have hsum : ∀ S cur, amountOn S cur ((postings (out ++ allAsWritten old.length ts)).map fun p => (p.acc, p.units, p.cur)) =
      amountOn S cur ((postings (out ++ allAsWritten old.length us)).map fun p => (p.acc, p.units, p.cur)) := by
    intro S cur
    have happ : ∀ x y : List Booked.Directive, postings (x ++ y) = postings x ++ postings y := by intro x y; simp [postings]
    simp only [happ, List.map_append, amountOn_append, postings_allWritten]
    congr 1
    refine amountOn_alike (fun a c => ?_) S cur
    rw [amountOn_moved (InFull.all ht), amountOn_moved (InFull.all hu)]
    exact hm a c
  refine ⟨_, _, h1, h2, rfl, rfl, fun acc cur => ⟨?_, ?_⟩, fun rest hc => ?_⟩
  · rw [posted_amount, posted_amount, hsum]
  · rw [rolledUp_amount, rolledUp_amount, hsum]
  · have hlife : ∀ xs, (∀ d ∈ xs, FullTransaction old d) → ∀ a, life (old ++ xs) a = life old a := by
      intro xs hx a
      have : xs.filter (touches a) = [] := List.filter_eq_nil_iff.2 fun d hd => by simp [(hx d hd).touches a]
      rw [life_touched, List.filter_append, this, List.append_nil, ← life_touched]
    refine C106 L hL order hf o alike _ _ rest _ _ w w h1 h2 ⟨fun d _ a _ => ?_, fun d _ a _ p q hp hq => ?_, fun d _ b _ => ?_⟩ hc
    · rw [hlife ts ht, hlife us hu]
      cases life old a with
      | never => exact .never
      | opn o => exact .opn _ _ rfl rfl
      | closed o => exact .closed _ _ rfl rfl
    · obtain ⟨s, hr, hl, hpe, -⟩ := accepted_led hL hf h
      obtain ⟨s₁, g1, -, -, -, g2, g3⟩ := FullTransaction.run (option := o.bookingMethod) hL hb ts hl hpe ht
      obtain ⟨s₂, k1, -, -, -, k2, k3⟩ := FullTransaction.run (option := o.bookingMethod) hL hb us hl hpe hu
      simp only [holdings, Tally.run_append, hr, Nat.zero_add, g1, k1, Option.bind_some] at hp hq
      cases ha : s.held a with
      | none => rw [g3 a ha] at hp; cases hp
      | some x =>
        obtain ⟨y, hy, ey⟩ := g2 hc.accumulate a x ha
        obtain ⟨z, hz, ez⟩ := k2 hc.accumulate a x ha
        rw [hy] at hp
        rw [hz] at hq
        cases hp
        cases hq
        refine hb.equivalence.trans (hb.equivalence.symm ey) (hb.equivalence.trans (hb.totals x _ _ fun c => ?_) ez)
        rw [totalIn_amountsOn (InFull.all ht), totalIn_amountsOn (InFull.all hu)]
        exact hm a c
    · rw [rolledUp_amount, rolledUp_amount, hsum]

/-- C113: the order of transactions written in full makes no difference to what follows. -/
theorem C113_order (L : BookLib) (hL : L.Lawful) (order : AMap Str (Account L) → AMap Str (Account L)) (hf : ∀ m, (order m).Perm m) (o : BookOptions)
    (alike : L.Pos → L.Pos → Prop) (hb : BooksInFull L o.tolerance alike) (old ts us rest : List Raw.Directive) (out : List Booked.Directive)
    (w : List IndexedReport) (h : book L order o old = .success out w) (ht : ∀ d ∈ ts, FullTransaction old d) (hu : us.Perm ts)
    (hc : Carries L o.tolerance alike rest) :
    SameAfter (old ++ ts).length (old ++ us).length (out ++ allAsWritten old.length ts) (out ++ allAsWritten old.length us) w w
      (book L order o (old ++ ts ++ rest)) (book L order o (old ++ us ++ rest)) := by
  obtain ⟨_, _, -, -, rfl, rfl, -, h⟩ := C113 L hL order hf o alike hb old ts us out w h ht (fun d hd => ht d (hu.mem_iff.1 hd)) fun acc cur => by
    unfold moved writtenUnits
    exact (((((hu.flatMap_right postingSpecs).filter _).filter _).map _).sum_eq).symm
  exact h rest hc

/-- C113: a mistake can be undone. A transaction written in full, and later one which moves the same amounts back, make no difference to what
follows: the same happens as without the two. -/
theorem C113_undone (L : BookLib) (hL : L.Lawful) (order : AMap Str (Account L) → AMap Str (Account L)) (hf : ∀ m, (order m).Perm m) (o : BookOptions)
    (alike : L.Pos → L.Pos → Prop) (hb : BooksInFull L o.tolerance alike) (old ts rest : List Raw.Directive) (d e : Raw.Directive)
    (out : List Booked.Directive) (w : List IndexedReport) (h : book L order o old = .success out w) (ht : ∀ d ∈ ts, FullTransaction old d)
    (hd : FullTransaction old d) (he : ∃ t, e.variant = .transaction t)
    (hback : postingSpecs e = (postingSpecs d).map fun p => { p with units := p.units.map Dec.neg }) (hc : Carries L o.tolerance alike rest) :
    SameAfter (old ++ (d :: ts ++ [e])).length (old ++ ts).length (out ++ allAsWritten old.length (d :: ts ++ [e])) (out ++ allAsWritten old.length ts) w w
      (book L order o (old ++ (d :: ts ++ [e]) ++ rest)) (book L order o (old ++ ts ++ rest)) := by
  have hneg : ∀ ps cur, InFull ps → writtenUnits cur (ps.map fun p => { p with units := p.units.map Dec.neg }) = - writtenUnits cur ps := by
    intro ps cur hps
    unfold writtenUnits
    induction ps with
    | nil => simp
    | cons p ps ih =>
      have := ih fun q hq => hps q (List.mem_cons_of_mem _ hq)
      obtain ⟨⟨u, hu⟩, -⟩ := hps p (by simp)
      by_cases hcur : p.cur = some cur
      · simp only [List.map_cons, List.filter_cons, hcur, decide_true, if_true, List.sum_cons, this, hu, Option.map_some, Option.getD_some, Dec.val_neg]
        ring
      · simp only [List.map_cons, List.filter_cons, hcur, decide_false, Bool.false_eq_true, if_false, this]
  have he' : FullTransaction old e := by
    refine ⟨he, ?_, fun cur => ?_, ?_⟩
    · rw [hback]
      intro p hp
      obtain ⟨q, hq, rfl⟩ := List.mem_map.1 hp
      obtain ⟨⟨u, hu⟩, k⟩ := hd.full q hq
      exact ⟨⟨u.neg, by simp [hu]⟩, k⟩
    · rw [hback, hneg _ _ hd.full, hd.balances, neg_zero]
    · rw [hback]
      intro p hp
      obtain ⟨q, hq, rfl⟩ := List.mem_map.1 hp
      exact hd.fits q hq
  have hall : ∀ x ∈ d :: ts ++ [e], FullTransaction old x := by
    intro x hx
    simp only [List.cons_append, List.mem_cons, List.mem_append, List.not_mem_nil, or_false] at hx
    rcases hx with rfl | hx | rfl
    · exact hd
    · exact ht x hx
    · exact he'
  obtain ⟨_, _, -, -, rfl, rfl, -, h⟩ := C113 L hL order hf o alike hb old (d :: ts ++ [e]) ts out w h hall ht fun acc cur => by
    have happ : ∀ ps qs : List Raw.PostingSpec, writtenUnits cur ((ps ++ qs).filter fun p => decide (p.acc = acc)) =
        writtenUnits cur (ps.filter fun p => decide (p.acc = acc)) + writtenUnits cur (qs.filter fun p => decide (p.acc = acc)) := by
      intro ps qs; simp [writtenUnits]
    unfold moved
    rw [List.cons_append, List.flatMap_cons, happ, List.flatMap_append, happ, List.flatMap_cons, List.flatMap_nil, List.append_nil, hback]
    have hcomm : ((postingSpecs d).map fun p => { p with units := p.units.map Dec.neg }).filter (fun p => decide (p.acc = acc)) =
        ((postingSpecs d).filter fun p => decide (p.acc = acc)).map fun p => { p with units := p.units.map Dec.neg } := by
      rw [List.filter_map]; rfl
    rw [hcomm, hneg _ _ fun p hp => hd.full p (List.mem_filter.1 hp).1]
    ring
  exact h rest hc

namespace Toy

/-- The same units of each currency. -/
def UnitsAgree (p q : Pos) : Prop := ∀ c, (units p c).val = (units q c).val

theorem heldAfter_mem {L : BookLib} {us : List (Str × L.Pos)} {held : Str → Option L.Pos} {a : Str} {q : L.Pos} (hn : (us.map Prod.fst).Nodup)
    (h : (a, q) ∈ us) : heldAfter held us a = some q := by
  induction us generalizing held with
  | nil => simp at h
  | cons u us ih =>
    rw [List.map_cons, List.nodup_cons] at hn
    rcases List.mem_cons.1 h with rfl | h
    · show heldAfter (Function.update held a (some q)) us a = some q
      rw [heldAfter_other, Function.update_self]
      intro q' hq'
      exact hn.1 (List.mem_map.2 ⟨_, hq', rfl⟩)
    · exact ih hn.2 h

theorem val_added (p : Pos) (l : List (Dec × Str)) (c : Str) : (units (added (L := lib) p l) c).val = (units p c).val + totalIn c l := by
  induction l generalizing p with
  | nil =>
    have : totalIn c [] = 0 := rfl
    rw [this, add_zero]
    rfl
  | cons x l ih =>
    have h1 := ih (accumulate p x.1 x.2 .strict)
    rw [val_accumulate] at h1
    rw [totalIn_cons]
    refine Eq.trans h1 ?_
    by_cases hx : c = x.2
    · simp [hx]; ring
    · simp [hx, Ne.symm hx]

theorem change_full (a c : Str) (ps : List Raw.PostingSpec) :
    postingsChange a c ps (ps.map fun p => { units := p.units.getD Dec.zero, currency := p.cur.getD [] }) = totalIn c (amountsOn a ps) := by
  induction ps with
  | nil => rfl
  | cons p ps ih =>
    simp only [List.map_cons, postingsChange, ih]
    unfold amountsOn
    by_cases h : p.acc = a
    · simp [h, totalIn_cons, Interpolated.lotUnits]
    · simp [h]

/-- The toy library books transactions written in full. -/
theorem lib_full (tol : Tolerance) : BooksInFull lib tol UnitsAgree := by
  refine ⟨⟨fun _ _ => rfl, fun h c => (h c).symm, fun h h' c => (h c).trans (h' c)⟩, fun p l l' h c => ?_, fun date ps held method hfull _ hheld => ?_⟩
  · exact (val_added p l c).trans ((congrArg _ (h c)).trans (val_added p l' c).symm)
  · have hcomp : complete ps = true := by
      unfold complete
      rw [decide_eq_true_eq, List.filter_eq_nil_iff.2]
      · simp
      · intro p hp
        obtain ⟨⟨u, hu⟩, -⟩ := hfull p hp
        simp [hu]
    have hint : ps.map (interpolate date (residual ps)) = ps.map fun p => { units := p.units.getD Dec.zero, currency := p.cur.getD [] } := by
      refine List.map_congr_left fun p hp => ?_
      obtain ⟨⟨u, hu⟩, ⟨c, hc⟩, h1, h2⟩ := hfull p hp
      simp [interpolate, hu, hc, h1, h2]
    have hbook : ∃ r, bookAll date ps tol held method = .ok r := by
      unfold bookAll
      rw [if_pos hcomp]
      exact ⟨_, rfl⟩
    obtain ⟨r, hr⟩ := hbook
    have hi : r.interpolated = ps.map fun p => { units := p.units.getD Dec.zero, currency := p.cur.getD [] } := by
      rw [bookAll_ok hr]; exact hint
    refine ⟨r, hr, hi, fun a p hp => ?_⟩
    by_cases ha : ∃ x ∈ ps, x.acc = a
    · refine ⟨_, heldAfter_mem (L := lib) (nodup_updated hr) ((mem_updated hr a _).2 ⟨ha, rfl⟩), fun c => ?_⟩
      refine (val_added p _ c).trans ?_
      rw [val_applyAll, hp, hint, change_full]
      rfl
    · refine ⟨p, ?_, fun c => ?_⟩
      · rw [heldAfter_other, hp]
        exact fun q hq => ha ((mem_updated hr a q).1 hq).1
      · have : amountsOn a ps = [] := by
          unfold amountsOn
          rw [List.map_eq_nil_iff, List.filter_eq_nil_iff]
          intro x hx
          simpa using fun e => ha ⟨x, hx, e⟩
        rw [this]
        rfl

/-- To the toy library holdings with the same units are alike. -/
theorem lib_carries_units (tol : Tolerance) (rest : List Raw.Directive) : Carries lib tol UnitsAgree rest := by
  refine ⟨fun _ => rfl, fun p q u v cur h hv c => ?_, fun d _ t _ held held' method method' hp => ?_⟩
  · refine (val_accumulate p u cur .strict c).trans (Eq.trans ?_ (val_accumulate q v cur .strict c).symm)
    rw [h, hv]
  · show AnsweredAlike (L := lib) _ _ _ _ (bookAll d.date t.postings tol held method) (bookAll d.date t.postings tol held' method')
    cases h : bookAll d.date t.postings tol held method with
    | error e =>
      unfold bookAll at h ⊢
      split at h
      · cases h
      · rename_i hc
        rw [if_neg hc]
        cases h
        exact .refused _
    | ok r =>
      have hbook : ∃ r', bookAll d.date t.postings tol held' method' = .ok r' := by
        unfold bookAll at h ⊢
        split at h
        · rename_i hc
          rw [if_pos hc]
          exact ⟨_, rfl⟩
        · cases h
      obtain ⟨r', h'⟩ := hbook
      rw [h']
      have e : r'.interpolated = r.interpolated := by rw [bookAll_ok h, bookAll_ok h']
      obtain ⟨is, us⟩ := r
      obtain ⟨is', us'⟩ := r'
      cases e
      refine .booked _ _ _ fun p hpp => ?_
      rw [heldAfter_mem (L := lib) (nodup_updated h) ((mem_updated h p.acc _).2 ⟨⟨p, hpp, rfl⟩, rfl⟩),
        heldAfter_mem (L := lib) (nodup_updated h') ((mem_updated h' p.acc _).2 ⟨⟨p, hpp, rfl⟩, rfl⟩)]
      refine .some fun c => ?_
      rw [val_applyAll, val_applyAll]
      congr 1
      have := (hp p hpp).1
      generalize held p.acc = x at *
      generalize held' p.acc = y at *
      cases this with
      | none => rfl
      | some h => exact h c

end Toy

namespace Ex

open Toy

/-- Shopping twice. -/
def shoppedTwice : List Raw.Directive :=
  [mkTxn 5 [(food, ⟨12, 0⟩, nzd), (bank, ⟨-12, 0⟩, nzd)], mkTxn 6 [(food, ⟨8, 0⟩, nzd), (equity, ⟨2, 0⟩, nzd), (bank, ⟨-10, 0⟩, nzd)]]

/-- In one go, with a wrong amount which is taken back. -/
def atOnce : List Raw.Directive :=
  [mkTxn 5 [(bank, ⟨-23, 0⟩, nzd), (food, ⟨21, 0⟩, nzd), (equity, ⟨200, 2⟩, nzd)], mkTxn 6 [(bank, ⟨10, 1⟩, nzd), (food, ⟨-10, 1⟩, nzd)]]

/-- What follows, which pads the bank, and has a fault. -/
def afterShopping : List Raw.Directive :=
  [mkBal 7 bank ⟨43, 0⟩ nzd, mkPad 8 bank equity, mkBal 9 bank ⟨50, 0⟩ nzd, mkBal 9 food ⟨50, 0⟩ nzd]

/-- Both fit the year before. -/
theorem shopping_fits : ∀ d ∈ shoppedTwice ++ atOnce, FullTransaction lastYear d := by
  have key : ∀ d ∈ shoppedTwice ++ atOnce, (match d.variant with | .transaction _ => true | _ => false) = true ∧
      (∀ p ∈ postingSpecs d, p.units.isSome ∧ p.cur = some nzd ∧ p.costSpec.isNone ∧ p.priceSpec.isNone ∧ p.acc ∈ [bank, food, equity]) := by
    decide +kernel
  intro d hd
  obtain ⟨h1, h2⟩ := key d hd
  refine ⟨?_, fun p hp => ?_, fun cur => ?_, fun p hp => ?_⟩
  · cases hv : d.variant <;> simp only [hv, Bool.false_eq_true] at h1
    exact ⟨_, rfl⟩
  · obtain ⟨k1, k2, k3, k4, -⟩ := h2 p hp
    exact ⟨Option.isSome_iff_exists.1 k1, ⟨_, k2⟩, Option.isNone_iff_eq_none.1 k3, Option.isNone_iff_eq_none.1 k4⟩
  · simp only [shoppedTwice, atOnce, List.cons_append, List.nil_append, List.mem_cons, List.not_mem_nil, or_false] at hd
    by_cases hc : nzd = cur
    · subst hc
      rcases hd with rfl | rfl | rfl | rfl <;> norm_num [writtenUnits, postingSpecs, mkTxn, Dec.val]
    · rcases hd with rfl | rfl | rfl | rfl <;> simp [writtenUnits, postingSpecs, mkTxn, hc]
  · obtain ⟨-, k2, -, -, k5⟩ := h2 p hp
    simp only [List.mem_cons, List.not_mem_nil, or_false] at k5
    rcases k5 with e | e | e <;> rw [e]
    · refine ⟨{ acc := bank, currencies := some [nzd] }, rfl, .inr fun c hc => ?_⟩
      rw [k2] at hc
      cases hc
      decide
    · exact ⟨{ acc := food }, rfl, .inl rfl⟩
    · exact ⟨{ acc := equity }, rfl, .inl rfl⟩

/-- Both move the same. -/
theorem shopping_moved (acc cur : Str) : moved shoppedTwice acc cur = moved atOnce acc cur := by
  unfold moved writtenUnits
  by_cases hc : nzd = cur
  · subst hc
    by_cases h1 : bank = acc
    · subst h1
      have h2 : ¬ equity = bank := by decide
      have h3 : ¬ food = bank := by decide
      norm_num [shoppedTwice, atOnce, postingSpecs, mkTxn, h2, h3, Dec.val]
    · by_cases h2 : equity = acc
      · subst h2
        have h3 : ¬ food = equity := by decide
        norm_num [shoppedTwice, atOnce, postingSpecs, mkTxn, h1, h3, Dec.val]
      · by_cases h3 : food = acc
        · norm_num [shoppedTwice, atOnce, postingSpecs, mkTxn, h1, h2, h3, Dec.val]
        · norm_num [shoppedTwice, atOnce, postingSpecs, mkTxn, h1, h2, h3, Dec.val]
  · have none : ∀ ts, (ts = shoppedTwice ∨ ts = atOnce) → ((ts.flatMap postingSpecs).filter fun p => decide (p.acc = acc)).filter
        (fun p => decide (p.cur = some cur)) = [] := by
      intro ts hts
      rw [List.filter_eq_nil_iff]
      intro p hp
      have key : ∀ p ∈ (shoppedTwice ++ atOnce).flatMap postingSpecs, p.cur = some nzd := by decide +kernel
      rw [key p (by
        rw [List.flatMap_append, List.mem_append]
        rcases hts with rfl | rfl
        · exact .inl (List.mem_filter.1 hp).1
        · exact .inr (List.mem_filter.1 hp).1)]
      simpa using hc
    rw [none _ (.inl rfl), none _ (.inr rfl)]

/-- So the theorem applies, whatever follows. -/
example (rest : List Raw.Directive) : ∃ out, run lastYear = .success out [] ∧
    SameAfter 8 8 (out ++ allAsWritten 6 shoppedTwice) (out ++ allAsWritten 6 atOnce) [] [] (run (lastYear ++ shoppedTwice ++ rest)) (run (lastYear ++ atOnce ++ rest)) := by
  have e : ∀ x : Outcome, (∃ out, x = .success out []) ↔ x = .success (match x with | .success out _ => out | _ => []) [] := by
    intro x
    constructor
    · rintro ⟨out, rfl⟩; rfl
    · exact fun h => ⟨_, h⟩
  have h := (e (run lastYear)).1 ⟨_, rfl⟩
  refine ⟨_, h, ?_⟩
  obtain ⟨_, _, -, -, rfl, rfl, -, k⟩ := C113 lib lib_lawful id (fun _ => .refl _) {} UnitsAgree (lib_full _) lastYear shoppedTwice atOnce _ _ h
    (fun d hd => shopping_fits d (List.mem_append_left _ hd)) (fun d hd => shopping_fits d (List.mem_append_right _ hd)) shopping_moved
  exact k rest (lib_carries_units _ _)

/-- What follows has a fault after both, and the same. -/
example : placed (run (lastYear ++ shoppedTwice ++ afterShopping)) = [(11, .accumulated ⟨55, 0⟩ ⟨-5, 0⟩ nzd)] ∧
    placed (run (lastYear ++ atOnce ++ afterShopping)) = [(11, .accumulated ⟨550, 1⟩ ⟨-50, 1⟩ nzd)] := by
  constructor <;> decide +kernel

/-- A transaction which takes back another. -/
example : postingSpecs (mkTxn 9 [(food, ⟨-12, 0⟩, nzd), (bank, ⟨12, 0⟩, nzd)]) =
    (postingSpecs (mkTxn 5 [(food, ⟨12, 0⟩, nzd), (bank, ⟨-12, 0⟩, nzd)])).map fun p => { p with units := p.units.map Dec.neg } := rfl

end Ex

end Limabean
