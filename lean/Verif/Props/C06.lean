/-
C06: do the assertions of an accepted ledger hold in the ledger which is returned?

Not always: a pad is filled at its own position when a later assertion consumes it, so that it changes the totals at
assertions in between. `C06_not_always` is such a ledger. `C06_assertions_hold_partial` excludes these pads; missing is
exactly the case of a pad which is consumed by a later assertion and which moves units across the boundary of the
asserted account, and that of a pad whose source is the asserted account or below.
-/
import Verif.Proofs.Extend
import Mathlib.Tactic.IntervalCases

namespace Limabean

open Spec

/-- The full statement of C06. -/
def AssertionsHold (multiplier : Option Dec) (out : List Booked.Directive) : Prop :=
  ∀ pre d post b, out = pre ++ d :: post → d.variant = .balance b →
    |b.raw.units.val - rolledUp pre b.raw.acc b.raw.cur| ≤ tolerance multiplier b.raw

/-- No pad before an assertion interferes with it: each is consumed by an earlier assertion, or it is for the asserted
account and its source is not below, or it moves no units across the boundary of the asserted account. -/
def PadsClear (before : List Raw.Directive) (b : Raw.Balance) : Prop :=
  ∀ l d p m, before = l ++ d :: m → d.variant = .pad p →
    (∃ d' ∈ m, ∃ b', d'.variant = .balance b' ∧ b'.acc = p.acc) ∨
    (p.acc = b.acc ∧ ¬ Below b.acc p.source) ∨
    (p.acc ≠ b.acc ∧ (Below b.acc p.acc ↔ Below b.acc p.source))

variable {L : BookLib}

theorem sumUnits_congr (sel : Booked.Posting → Bool) {a b : List Booked.Directive} (hl : a.length = b.length)
    (h : ∀ (i : Nat) x y, a[i]? = some x → b[i]? = some y → sumP sel (postingsOf x) = sumP sel (postingsOf y)) :
    sumUnits sel a = sumUnits sel b := by
  induction a generalizing b with
  | nil => cases b with
    | nil => rfl
    | cons y b => simp at hl
  | cons x a ih => cases b with
    | nil => simp at hl
    | cons y b =>
      rw [sumUnits_cons, sumUnits_cons, h 0 x y rfl rfl, ih (by simpa using hl)]
      intro i x' y' hx hy
      exact h (i+1) x' y' (by simpa using hx) (by simpa using hy)

theorem sumP_pair (S : Str → Bool) (c cur : Str) (m : Dec) (a src : Str) :
    sumP (fun q => S q.acc ∧ q.cur = c) (calculateBalancePadPostings cur m a src) =
      (if S a = true ∧ cur = c then m.val else 0) - (if S src = true ∧ cur = c then m.val else 0) := by
  unfold calculateBalancePadPostings
  simp only [sumP_cons, sumP_nil, decide_eq_true_eq, Dec.val_neg, add_zero]
  split <;> split <;> simp

/-- C06, but for interfering pads. -/
theorem C06_assertions_hold_partial (L : BookLib) (hL : L.Lawful)
    (order : AMap Str (Account L) → AMap Str (Account L)) (hf : ∀ m, (order m).Perm m) (o : BookOptions)
    (ds : List Raw.Directive) (out : List Booked.Directive) (w : List IndexedReport)
    (h : book L order o ds = .success out w)
    (pre : List Booked.Directive) (d : Booked.Directive) (post : List Booked.Directive) (b : Booked.Balance)
    (hout : out = pre ++ d :: post) (hv : d.variant = .balance b) (hclear : PadsClear (ds.take d.idx) b.raw) :
    |b.raw.units.val - rolledUp pre b.raw.acc b.raw.cur| ≤ tolerance o.tolerance.multiplier b.raw ∨
    rolledUp pre b.raw.acc b.raw.cur = b.raw.units.val := by
  have hfair : (envOf L o order).Fair := hf
  obtain ⟨r, hl, he, -, hb, -⟩ := collect_success h
  have hd : r.booked[pre.length]? = some d := by rw [hb, hout]; simp
  obtain ⟨ds1, raw, ds2, r1, r2, rfl, hl1, hs, hl2, hl3, hlen, hraw, hidx⟩ := balance_origin hl he hd hv
  have he2 : r2.errors = [] := loop_errors_nil _ _ _ _ hl3 he
  have hi1 := StInv.loop hl1
  have hi2 := StInv.loop hl2
  have hext : Extends r2 r := Extends.loop ds2 _ r2 r (by simpa using hi2) hl3
  rw [show (ds1 ++ raw :: ds2).take d.idx = ds1 by rw [hidx]; simp] at hclear
  obtain ⟨he1, st', v, v2, bk, hdir, hbe, rfl⟩ := errors_nil_of_step hs he2
  rcases State.directive_ok hdir with ⟨t, hv', -⟩ | ⟨b', hv', hbal, rfl⟩ | ⟨op, hv', -⟩ |
    ⟨cl, hv', -⟩ | ⟨p, v', hv', -⟩ | ⟨hpl, -⟩
  · rw [hv'] at hraw; cases hraw
  rotate_left
  · rw [hv'] at hraw; cases hraw
  · rw [hv'] at hraw; cases hraw
  · rw [hv'] at hraw; cases hraw
  · rw [hraw] at hpl; simp [plainVariant] at hpl
  rw [hv'] at hraw
  cases hraw
  set b' := b.raw with hb'
  simp only [Option.map_none, Option.toList_none, List.append_nil] at *
  -- pads which are still pending do not interfere
  have hpend1 := PendInv.loop hl1 he1
  have hcross : ∀ a j e src, r1.st.padOf a = some (j, e) → padSource r1.booked j = some src → a ≠ b'.acc →
      (Below b'.acc a ↔ Below b'.acc src) := by
    intro a j e src hp hsrc hne
    obtain ⟨l, d', p, m, hpre, h1, h2, h3, -, h4⟩ := hpend1 a j e hp
    rcases hclear l d' p m hpre h1 with ⟨d'', hd'', b'', hb'', hacc⟩ | ⟨hacc, -⟩ | ⟨-, hiff⟩
    · exact absurd (hacc.trans h2) (h4 d'' hd'' b'' hb'')
    · exact absurd (h2.symm.trans hacc) hne
    · rw [hsrc] at h3
      cases h3
      rw [← h2]; exact hiff
  have hown : ∀ j e src, r1.st.padOf b'.acc = some (j, e) → padSource r1.booked j = some src →
      ¬ Below b'.acc src := by
    intro j e src hp hsrc
    obtain ⟨l, d', p, m, hpre, h1, h2, h3, -, h4⟩ := hpend1 _ j e hp
    rcases hclear l d' p m hpre h1 with ⟨d'', hd'', b'', hb'', hacc⟩ | ⟨-, hn⟩ | ⟨hne, -⟩
    · exact absurd (hacc.trans h2) (h4 d'' hd'' b'' hb'')
    · rw [hsrc] at h3
      cases h3
      exact hn
    · exact absurd h2 hne
  -- the prefix of the returned ledger has the same total as the directives booked at the time
  have hbklen : bk.length = pre.length := by
    obtain ⟨y, -, -, -, ⟨-, -, -, rfl⟩ | ⟨m, -, -, -, -, rfl⟩ | ⟨m, k, e0, -, -, hf⟩⟩ := State.balance_ok hbal
    · exact hlen
    · exact hlen
    · obtain ⟨d1, p, d2, t, src, -, -, -, -, rfl, -⟩ := State.fillPad_ok hf
      simpa using hlen
  have hpend2 : ∀ a j e src, st'.padOf a = some (j, e) →
      padSource (bk ++ [mkBooked ds1.length raw v]) j = some src → (Below b'.acc a ↔ Below b'.acc src) := by
    intro a j e src hp hsrc
    have hlt : j < bk.length := by
      have hpa := hi2.padAt hp
      obtain ⟨f, q, f2, u, g1, g2, g3, g4, g5, -⟩ := hpa
      have := (List.getElem?_eq_some_iff.1 g5).1
      simp only [List.length_append, List.length_singleton] at this
      omega
    rw [padSource_append hlt] at hsrc
    obtain ⟨y, hop, hy, -, ⟨-, rfl, -, rfl⟩ | ⟨m, -, hyp, rfl, -, rfl⟩ | ⟨m, k, e0, -, hyp, hf⟩⟩ := State.balance_ok hbal
    · rw [State.padOf_setAccount] at hp
      split at hp
      · cases hp
      · rename_i hne
        exact hcross a j e src hp hsrc (fun e => hne e.symm)
    · rw [State.resetTo, State.padOf_setAccount] at hp
      split at hp
      · cases hp
      · rename_i hne
        exact hcross a j e src hp hsrc (fun e => hne e.symm)
    · obtain ⟨d1, p, d2, t, src', h1, h2, h3, h4, rfl, h6, rfl, rfl⟩ := State.fillPad_ok hf
      rw [padSource_fill h3 h4] at hsrc
      have hpad' : (r1.st.resetTo b' y m r1.booked.length).padOf a = some (j, e) := by
        rw [State.padOf_setAccount] at hp
        split at hp
        · rename_i hps
          subst hps
          exact State.padOf_some.2 ⟨src', h6, hp⟩
        · exact hp
      rw [State.resetTo, State.padOf_setAccount] at hpad'
      split at hpad'
      · cases hpad'
      · rename_i hne
        exact hcross a j e src hpad' hsrc (fun e => hne e.symm)
  have hsum : rolledUp pre b'.acc b'.cur = rolledUp bk b'.acc b'.cur := by
    unfold rolledUp
    apply sumUnits_congr _ hbklen.symm
    intro i x y hx hy
    have hlt := (List.getElem?_eq_some_iff.1 hy).1
    have hxr : r.booked[i]? = some x := by
      rw [hb, hout, List.getElem?_append_left (by omega)]; exact hx
    have hy2 : (bk ++ [mkBooked ds1.length raw v])[i]? = some y := by
      rw [List.getElem?_append_left hlt]; exact hy
    rcases hext.booked i y hy2 with h1 | ⟨a, j, e, t, src, cur, m, rfl, k1, k2, k3, k4, k5, -⟩
    · rw [hxr] at h1; cases h1; rfl
    · rw [hxr] at k5
      simp only [Option.some.injEq] at k5
      subst k5
      have hiff := hpend2 a j e src k1 k2
      have hy0 : postingsOf y = [] := by simp [postingsOf, k3, k4]
      have hx0 : postingsOf (y.withPostings t (calculateBalancePadPostings cur m a src)) =
        calculateBalancePadPostings cur m a src := rfl
      rw [hy0, hx0]
      have := sumP_pair (fun q => Below b'.acc q) b'.cur cur m a src
      simp only [decide_eq_true_eq] at this
      rw [this]
      by_cases hB : Below b'.acc a
      · simp [hB, hiff.1 hB, sumP_nil]
      · have : ¬ Below b'.acc src := fun h => hB (hiff.2 h)
        simp [hB, this, sumP_nil]
  rw [hsum]
  have hheld1 : r1.st.held (fun x => Below b'.acc x) b'.cur = rolledUp r1.booked b'.acc b'.cur := by
    rw [held_loop hL hl1 he1]; simp [rolledUp]
  obtain ⟨y, hop, hy, -, ⟨hm, rfl, rfl, rfl⟩ | ⟨m, hm, hyp, rfl, rfl, rfl⟩ | ⟨m, k, e0, hm, hyp, hf⟩⟩ := State.balance_ok hbal
  · rw [marginOf_none_iff hfair, hheld1] at hm
    exact Or.inl hm
  · have := balanceErrors_nil hbe
    simp at this
  · obtain ⟨d1, p, d2, t, src', h1, h2, h3, h4, rfl, h6, rfl, rfl⟩ := State.fillPad_ok hf
    have hns : ¬ Below b'.acc p.source :=
      hown k e0 p.source (State.padOf_some.2 ⟨y, hy, hyp⟩) (by simp [padSource, h1, h2])
    obtain ⟨f, q, f2, u, g1, g2, g3, g4, g5, g6, g7, g8⟩ := hi1.pad _ _ _ _ hy hyp
    rw [h3] at g5; cases g5
    rw [h4] at g6; cases g6
    have : rolledUp (r1.booked.set (k + 1) (d2.withPostings t (calculateBalancePadPostings b'.cur m b'.acc p.source)))
        b'.acc b'.cur = b'.units.val := by
      unfold rolledUp
      rw [sumUnits_set _ h3]
      have e1 : postingsOf d2 = [] := by simp [postingsOf, h4, g7]
      have e2 : postingsOf (d2.withPostings t (calculateBalancePadPostings b'.cur m b'.acc p.source)) =
        calculateBalancePadPostings b'.cur m b'.acc p.source := rfl
      rw [e1, e2]
      have e3 := sumP_pair (fun q => Below b'.acc q) b'.cur b'.cur m b'.acc p.source
      simp only [decide_eq_true_eq] at e3
      rw [e3]
      have e4 := marginOf_some hfair hm
      rw [hheld1] at e4
      unfold rolledUp at e4
      simp only [Spec.Below.refl, hns, and_self, if_true, false_and, if_false, sumP_nil, e4]
      ring
    exact Or.inr this

/-- C06: for assertions with a tolerance which is not negative. -/
theorem C06_within_tolerance_partial (L : BookLib) (hL : L.Lawful)
    (order : AMap Str (Account L) → AMap Str (Account L)) (hf : ∀ m, (order m).Perm m) (o : BookOptions)
    (ds : List Raw.Directive) (out : List Booked.Directive) (w : List IndexedReport)
    (h : book L order o ds = .success out w)
    (hclear : ∀ l d m b, ds = l ++ d :: m → d.variant = .balance b →
      PadsClear l b ∧ 0 ≤ tolerance o.tolerance.multiplier b) :
    AssertionsHold o.tolerance.multiplier out := by
  intro pre d post b hout hv
  obtain ⟨r, hl, he, -, hb, -⟩ := collect_success h
  have hd : r.booked[pre.length]? = some d := by rw [hb, hout]; simp
  obtain ⟨ds1, raw, ds2, r1, r2, rfl, -, -, -, -, -, hraw, hidx⟩ := balance_origin hl he hd hv
  obtain ⟨hc, ht⟩ := hclear ds1 raw ds2 b.raw rfl hraw
  rcases C06_assertions_hold_partial L hL order hf o _ out w h pre d post b hout hv
    (by rw [show (ds1 ++ raw :: ds2).take d.idx = ds1 by rw [hidx]; simp]; exact hc) with h1 | h1
  · exact h1
  · rw [h1]; simpa using ht

namespace C06Witness

open Toy

def a : Str := str% "Assets:A"
def e : Str := str% "Equity:E"

/-- Padding A from E, then asserting that E is empty, then that A holds 100. -/
def ledger : List Raw.Directive :=
  [mkOpen 1 a, mkOpen 1 e, mkPad 2 a e, mkBal 3 e ⟨0, 0⟩ Ex.nzd, mkBal 4 a ⟨100, 0⟩ Ex.nzd]

def out : List Booked.Directive :=
  match run ledger with
  | .success ds _ => ds
  | _ => []

theorem ok : run ledger = .success out [] := by decide +kernel

end C06Witness

/-- C06 is not true of every accepted ledger: here E holds -100 where it is asserted to be empty. -/
theorem C06_not_always : ∃ ds out w, book Toy.lib id {} ds = .success out w ∧ ¬ AssertionsHold none out := by
  refine ⟨C06Witness.ledger, C06Witness.out, [], C06Witness.ok, ?_⟩
  intro h
  have hsplit : C06Witness.out = C06Witness.out.take 4 ++
      { idx := 3, date := Toy.day 3, variant := .balance { raw := { acc := C06Witness.e, units := ⟨0, 0⟩, cur := Ex.nzd } } } ::
      C06Witness.out.drop 5 := by decide +kernel
  have := h _ _ _ _ hsplit rfl
  have hsum : rolledUp (C06Witness.out.take 4) C06Witness.e Ex.nzd = -100 := by
    have hp : (postings (C06Witness.out.take 4)).filter (fun p => Below C06Witness.e p.acc ∧ p.cur = Ex.nzd) =
      [{ flag := some padFlag, acc := C06Witness.e, units := ⟨-100, 0⟩, cur := Ex.nzd }] := by decide +kernel
    unfold rolledUp sumUnits
    rw [hp]
    norm_num [Dec.val]
  simp only [hsum] at this
  norm_num [Dec.val, tolerance] at this

/-- The hypotheses are met by a ledger with a pad. -/
example : PadsClear (Ex.ledger.take 9) { acc := Ex.bank, units := ⟨8750, 2⟩, cur := Ex.nzd } := by
  intro l d p m h hv
  left
  have : l.length = 5 := by
    have hd : (Ex.ledger.take 9)[l.length]? = some d := by rw [h]; simp
    have hlt : l.length < 9 := by
      have := congrArg List.length h
      simp [Ex.ledger] at this
      omega
    interval_cases l.length <;> simp [Ex.ledger, Toy.mkOpen, Toy.mkPad, Toy.mkBal, Ex.lunch, Ex.sale] at hd <;>
      subst hd <;> first | rfl | simp at hv
  have hm : m = (Ex.ledger.take 9).drop 6 := by
    rw [h, show 6 = l.length + 1 by omega]; simp
  have hd : (Ex.ledger.take 9)[5]? = some d := by rw [h, ← this]; simp
  simp [Ex.ledger, Toy.mkPad] at hd
  subst hd
  simp only [Raw.Variant.pad.injEq] at hv
  subst hv
  exact ⟨Toy.mkBal 3 Ex.bank ⟨10000, 2⟩ Ex.nzd, by rw [hm]; simp [Ex.ledger], _, rfl, rfl⟩

end Limabean
