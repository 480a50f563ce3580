/-
C07: a pad transaction closes exactly the gap.
-/
import Verif.Proofs.Pads
import Verif.Props.C06

namespace Limabean

open Spec

/-- The two postings of a pad transaction, as specified. -/
def Spec.padPostings (cur : Str) (margin : Dec) (padded source : Str) : List Booked.Posting :=
  [ { flag := some (str% "'P"), acc := padded, units := margin, cur := cur },
    { flag := some (str% "'P"), acc := source, units := ⟨-margin.m, margin.s⟩, cur := cur } ]

theorem split_at_two {α : Type} {l : List α} {j : Nat} {x y : α} (hx : l[j]? = some x) (hy : l[j+1]? = some y) :
    l = l.take j ++ x :: y :: l.drop (j+2) := by
  obtain ⟨h1, rfl⟩ := List.getElem?_eq_some_iff.1 hx
  obtain ⟨h2, rfl⟩ := List.getElem?_eq_some_iff.1 hy
  conv_lhs => rw [← List.take_append_drop j l, List.drop_eq_getElem_cons h1, List.drop_eq_getElem_cons h2]

/-- C07: if a ledger ending in a balance assertion is accepted, and its last pad of the asserted account is not
followed by another assertion on that account, then the transaction generated for that pad has exactly two postings in
the asserted currency: the gap on the padded account and minus the gap on the source. The gap is the asserted amount
minus the total of all the other postings of the ledger, it is beyond tolerance, and if the source is not below the
asserted account, the total of the whole ledger is exactly the asserted amount. -/
theorem C07_pad_closes_gap (L : BookLib) (hL : L.Lawful) (order : AMap Str (Account L) → AMap Str (Account L))
    (hf : ∀ m, (order m).Perm m) (o : BookOptions) (l m : List Raw.Directive) (dpad dbal : Raw.Directive)
    (p : Raw.Pad) (b : Raw.Balance) (out : List Booked.Directive) (w : List IndexedReport)
    (h : book L order o (l ++ dpad :: m ++ [dbal]) = .success out w)
    (hp : dpad.variant = .pad p) (hb : dbal.variant = .balance b) (hacc : p.acc = b.acc)
    (hm : ∀ d ∈ m, ∀ b', d.variant = .balance b' → b'.acc ≠ b.acc) :
    ∃ o1 x y o2 t gap, out = o1 ++ x :: y :: o2 ∧ x.variant = .pad p ∧ x.idx = l.length ∧ y.idx = l.length ∧
      y.variant = .transaction t ∧ t.postings = padPostings b.cur gap b.acc p.source ∧
      gap.val = b.units.val - rolledUp (o1 ++ o2) b.acc b.cur ∧
      tolerance o.tolerance.multiplier b < |gap.val| ∧
      (¬ Below b.acc p.source → rolledUp out b.acc b.cur = b.units.val) := by
  have hfair : (envOf L o order).Fair := hf
  obtain ⟨r, hl, he, -, hout, -⟩ := collect_success h
  rw [Run.loop_snoc] at hl
  obtain ⟨r1, hl1, hs⟩ := hl
  rw [Nat.zero_add] at hs
  have he1 := (errors_nil_of_step hs he).1
  have hi1 := StInv.loop hl1
  obtain ⟨j, e, x, h1, h2, h3, h4⟩ := pending_of_input hl1 he1 rfl hp (by rw [hacc]; exact hm)
  rw [hacc] at h1
  obtain ⟨g, d', p', d2, t, hg, k1, k2, k3, k4, k5⟩ := balance_consumes hs he hb h1
  rw [h2] at k1; cases k1
  rw [h3] at k2; cases k2
  obtain ⟨f, q, f2, u, g1, g2, g3, g4, g5, g6, g7, g8⟩ := hi1.padAt h1
  rw [k3] at g5; cases g5
  rw [k4] at g6; cases g6
  rw [h2] at g1; cases g1
  have hheld1 : r1.st.held (fun x => Below b.acc x) b.cur = rolledUp r1.booked b.acc b.cur := by
    rw [held_loop hL hl1 he1]; simp [rolledUp]
  have hgv := marginOf_some hfair hg
  rw [hheld1] at hgv
  have hgt : tolerance o.tolerance.multiplier b < |g.val| := by
    by_contra hle
    have hnone : r1.st.marginOf (envOf L o order) b = none := by
      rw [marginOf_none_iff hfair, hheld1, ← hgv]; exact not_lt.1 hle
    rw [hnone] at hg; cases hg
  have hlen := (List.getElem?_eq_some_iff.1 k3).1
  set y := d2.withPostings t (calculateBalancePadPostings b.cur g b.acc p.source) with hy
  have hxr : r.booked[j]? = some x := by
    rw [k5, List.getElem?_append_left (by simp; omega), List.getElem?_set_ne (by omega)]; exact h2
  have hyr : r.booked[j+1]? = some y := by
    rw [k5, List.getElem?_append_left (by simpa using hlen), List.getElem?_set_self hlen]
  have hsplit := split_at_two hxr hyr
  have hold := split_at_two h2 k3
  have htake : r.booked.take j = r1.booked.take j := by
    rw [k5, List.take_append_of_le_length (by simp; omega), List.take_set_of_le (by omega)]
  have hdrop : r.booked.drop (j+2) = r1.booked.drop (j+2) ++ [mkBooked (l ++ dpad :: m).length dbal (.balance { raw := b })] := by
    rw [k5, List.drop_append_of_le_length (by simp; omega), List.drop_set_of_lt (by omega)]
  have hx0 : postingsOf x = [] := by simp [postingsOf, h3]
  have hd20 : postingsOf d2 = [] := by simp [postingsOf, k4, g7]
  have hrest : rolledUp r1.booked b.acc b.cur = rolledUp (r.booked.take j ++ r.booked.drop (j+2)) b.acc b.cur := by
    rw [htake, hdrop]
    conv_lhs => rw [hold]
    unfold rolledUp
    simp only [sumUnits_append, sumUnits_cons, hx0, hd20, sumP_nil, sumUnits_nil]
    have : postingsOf (mkBooked (l ++ dpad :: m).length dbal (.balance { raw := b })) = [] := rfl
    rw [this, sumP_nil]; ring
  refine ⟨r.booked.take j, x, y, r.booked.drop (j+2), _, g, by rw [← hout]; exact hsplit, h3, h4, ?_, rfl, rfl,
    by rw [hgv, hrest], hgt, ?_⟩
  · show d2.idx = l.length
    rw [g8, h4]
  · intro hns
    rw [← hout, hsplit]
    have hy0 : postingsOf y = calculateBalancePadPostings b.cur g b.acc p.source := rfl
    unfold rolledUp at hrest hgv ⊢
    have e3 := sumP_pair (fun q => Below b.acc q) b.cur b.cur g b.acc p.source
    simp only [decide_eq_true_eq] at e3
    rw [sumUnits_append] at hrest
    rw [sumUnits_append, sumUnits_cons, sumUnits_cons, hx0, hy0, sumP_nil, e3]
    simp only [Spec.Below.refl, hns, and_self, if_true, false_and, if_false]
    rw [hrest] at hgv
    rw [hgv]; ring

/-- C07: whatever the gap, the two postings cancel. -/
theorem C07_balanced (cur : Str) (gap : Dec) (padded source : Str) :
    ((padPostings cur gap padded source).map fun q => q.units.val).sum = 0 := by
  have : Dec.val ⟨-gap.m, gap.s⟩ = -gap.val := Dec.val_neg gap
  simp [padPostings, this]

/-- C07: with the source below the asserted account the pad does not close the gap: both postings count. -/
theorem C07_source_below : ∃ ds out w b, book Toy.lib id {} (ds ++ [Toy.mkBal 4 Ex.bank ⟨100, 0⟩ Ex.nzd]) = .success out w ∧
    (Toy.mkBal 4 Ex.bank ⟨100, 0⟩ Ex.nzd).variant = .balance b ∧ rolledUp out b.acc b.cur ≠ b.units.val := by
  refine ⟨[Toy.mkOpen 1 Ex.bank, Toy.mkOpen 1 Ex.current, Toy.mkPad 2 Ex.bank Ex.current],
    match Toy.run [Toy.mkOpen 1 Ex.bank, Toy.mkOpen 1 Ex.current, Toy.mkPad 2 Ex.bank Ex.current,
      Toy.mkBal 4 Ex.bank ⟨100, 0⟩ Ex.nzd] with | .success ds _ => ds | _ => [], [], _, by decide +kernel, rfl, ?_⟩
  have hp : (postings (match Toy.run [Toy.mkOpen 1 Ex.bank, Toy.mkOpen 1 Ex.current, Toy.mkPad 2 Ex.bank Ex.current,
      Toy.mkBal 4 Ex.bank ⟨100, 0⟩ Ex.nzd] with | .success ds _ => ds | _ => [])).filter
        (fun p => Below Ex.bank p.acc ∧ p.cur = Ex.nzd) =
      padPostings Ex.nzd ⟨100, 0⟩ Ex.bank Ex.current := by decide +kernel
  unfold rolledUp sumUnits
  simp only
  rw [hp, C07_balanced]
  norm_num [Dec.val]

/-- A case: test-cases/pad.beancount up to its second assertion. -/
example : (match Toy.run ([Toy.mkOpen 1 Ex.equity, Toy.mkOpen 1 Ex.bank] ++ Toy.mkPad 2 Ex.bank Ex.equity ::
      [Toy.mkTxn 3 [(Ex.bank, ⟨-1000, 2⟩, Ex.nzd), (Ex.equity, ⟨1000, 2⟩, Ex.nzd)]] ++
      [Toy.mkBal 4 Ex.bank ⟨50, 0⟩ Ex.nzd]) with
    | .success ds _ => (ds.flatMap postingsOf).take 2
    | _ => []) = padPostings Ex.nzd ⟨6000, 2⟩ Ex.bank Ex.equity := by decide +kernel

end Limabean
