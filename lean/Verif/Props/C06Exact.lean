/-
C06: what exactly an assertion of an accepted ledger says about the ledger which is returned.

The assertion holds for the returned ledger without the pads which are filled by assertions after it (`C06_exact`), unless it fills a pad
whose source is the asserted account or below: then it does not.
-/
import Verif.Props.C07
import Verif.Proofs.Image

namespace Limabean

open Spec

namespace Spec

/-- Position `k` is that of a pad for another account than that of the assertion `b`, with no assertion on its account since. -/
def FilledLater (before : List Raw.Directive) (b : Raw.Balance) (k : Nat) : Prop :=
  ∃ l d p m, before = l ++ d :: m ∧ l.length = k ∧ d.variant = .pad p ∧ p.acc ≠ b.acc ∧
    ∀ d' ∈ m, ∀ b', d'.variant = .balance b' → b'.acc ≠ p.acc

/-- There is a pad from `source` for the asserted account, with no assertion on it since. -/
def Pads (before : List Raw.Directive) (b : Raw.Balance) (source : Str) : Prop :=
  ∃ l d p m, before = l ++ d :: m ∧ d.variant = .pad p ∧ p.acc = b.acc ∧ p.source = source ∧
    ∀ d' ∈ m, ∀ b', d'.variant = .balance b' → b'.acc ≠ b.acc

open Classical in
/-- What the account and those below hold at an assertion, but for pads which are filled later. -/
noncomputable def heldAt (before : List Raw.Directive) (b : Raw.Balance) (pre : List Booked.Directive) : ℚ :=
  rolledUp (pre.filter fun x => ¬ FilledLater before b x.idx) b.acc b.cur

end Spec

variable {L : BookLib}

theorem image_idx {n : Nat} {rs : List Raw.Directive} {bs : List Booked.Directive} (h : Image n rs bs) : ∀ x ∈ bs, n ≤ x.idx := by
  induction h with
  | nil n => simp
  | @single n raw b rs bs h1 h2 h3 h4 ih =>
    intro x hx
    rcases List.mem_cons.1 hx with rfl | hx
    · exact le_of_eq h2.idx.symm
    · exact Nat.le_of_succ_le (ih x hx)
  | @padded n raw b b' rs bs h1 h2 h3 h4 h5 h6 ih =>
    intro x hx
    rcases List.mem_cons.1 hx with rfl | hx
    · exact le_of_eq h2.idx.symm
    · rcases List.mem_cons.1 hx with rfl | hx
      · exact le_of_eq h4.idx.symm
      · exact Nat.le_of_succ_le (ih x hx)

/-- Only its transaction has the same position as a pad. -/
theorem image_pad {n : Nat} {rs : List Raw.Directive} {bs : List Booked.Directive} (h : Image n rs bs) {i j : Nat} {x y : Booked.Directive}
    {p : Raw.Pad} (hx : bs[j]? = some x) (hp : x.variant = .pad p) (hy : bs[i]? = some y) (he : y.idx = x.idx) : i = j ∨ i = j + 1 := by
  induction h generalizing i j with
  | nil n => simp at hx
  | @single n raw b rs bs h1 h2 h3 h4 ih =>
    cases j with
    | zero =>
      simp only [List.getElem?_cons_zero, Option.some.injEq] at hx
      subst hx
      rw [hp] at h3
      cases hr : raw.variant with
      | pad q => simp [isPad, hr] at h1
      | _ => rw [hr] at h3; cases h3
    | succ j =>
      simp only [List.getElem?_cons_succ] at hx
      have := image_idx h4 x (List.mem_of_getElem? hx)
      cases i with
      | zero =>
        simp only [List.getElem?_cons_zero, Option.some.injEq] at hy
        subst hy
        have := h2.idx
        omega
      | succ i =>
        rcases ih hx (by simpa using hy) with h | h <;> omega
  | @padded n raw b b' rs bs h1 h2 h3 h4 h5 h6 ih =>
    match j with
    | 0 =>
      simp only [List.getElem?_cons_zero, Option.some.injEq] at hx
      subst hx
      match i with
      | 0 => exact .inl rfl
      | 1 => exact .inr rfl
      | i + 2 =>
        have := image_idx h6 y (List.mem_of_getElem? (by simpa using hy))
        have := h2.idx
        omega
    | 1 =>
      simp only [List.getElem?_cons_succ, List.getElem?_cons_zero, Option.some.injEq] at hx
      subst hx
      obtain ⟨t, ht, -⟩ := h5
      rw [ht] at hp
      cases hp
    | j + 2 =>
      simp only [List.getElem?_cons_succ] at hx
      have hxi := image_idx h6 x (List.mem_of_getElem? hx)
      match i with
      | 0 =>
        simp only [List.getElem?_cons_zero, Option.some.injEq] at hy
        subst hy
        have := h2.idx
        omega
      | 1 =>
        simp only [List.getElem?_cons_succ, List.getElem?_cons_zero, Option.some.injEq] at hy
        subst hy
        have := h4.idx
        omega
      | i + 2 =>
        rcases ih hx (by simpa using hy) with h | h <;> omega

theorem sumUnits_filter_congr (sel : Booked.Posting → Bool) (keep : Booked.Directive → Bool) {a b : List Booked.Directive} (hl : a.length = b.length)
    (h : ∀ (i : Nat) x y, a[i]? = some x → b[i]? = some y → (if keep x then sumP sel (postingsOf x) else 0) = sumP sel (postingsOf y)) :
    sumUnits sel (a.filter keep) = sumUnits sel b := by
  induction a generalizing b with
  | nil => cases b with
    | nil => rfl
    | cons y b => simp at hl
  | cons x a ih => cases b with
    | nil => simp at hl
    | cons y b =>
      have h0 := h 0 x y rfl rfl
      have h1 := ih (b := b) (by simpa using hl) fun i x' y' hx hy => h (i+1) x' y' (by simpa using hx) (by simpa using hy)
      rw [sumUnits_cons, ← h0, ← h1]
      cases hk : keep x with
      | true => rw [List.filter_cons_of_pos (by simp [hk]), sumUnits_cons]; simp
      | false => rw [List.filter_cons_of_neg (by simp [hk])]; simp

/-- C06, exactly: without the pads which are filled later, the returned ledger satisfies each assertion, within its tolerance, or exactly if
it fills a pad; except that one which fills a pad from the asserted account, or from below, is not satisfied. -/
theorem C06_exact (L : BookLib) (hL : L.Lawful)
    (order : AMap Str (Account L) → AMap Str (Account L)) (hf : ∀ m, (order m).Perm m) (o : BookOptions)
    (ds : List Raw.Directive) (out : List Booked.Directive) (w : List IndexedReport)
    (h : book L order o ds = .success out w)
    (pre : List Booked.Directive) (d : Booked.Directive) (post : List Booked.Directive) (b : Booked.Balance)
    (hout : out = pre ++ d :: post) (hv : d.variant = .balance b) :
    (∃ source, Pads (ds.take d.idx) b.raw source ∧
      if Below b.raw.acc source then tolerance o.tolerance.multiplier b.raw < |b.raw.units.val - heldAt (ds.take d.idx) b.raw pre|
      else heldAt (ds.take d.idx) b.raw pre = b.raw.units.val) ∨
    ((∀ source, ¬ Pads (ds.take d.idx) b.raw source) ∧
      |b.raw.units.val - heldAt (ds.take d.idx) b.raw pre| ≤ tolerance o.tolerance.multiplier b.raw) := by
  have hfair : (envOf L o order).Fair := hf
  obtain ⟨r, hl, he, -, hb, -⟩ := collect_success h
  have hd : r.booked[pre.length]? = some d := by rw [hb, hout]; simp
  obtain ⟨ds1, raw, ds2, r1, r2, rfl, hl1, hs, hl2, hl3, hlen, hraw, hidx⟩ := balance_origin hl he hd hv
  have he2 : r2.errors = [] := loop_errors_nil _ _ _ _ hl3 he
  have hi1 := StInv.loop hl1
  have hi2 := StInv.loop hl2
  have hext : Extends r2 r := Extends.loop ds2 _ r2 r (by simpa using hi2) hl3
  have himg := image_loop hl2 he2
  have hpend2 := PendInv.loop hl2 he2
  rw [show (ds1 ++ raw :: ds2).take d.idx = ds1 by rw [hidx]; simp]
  -- pads which are pending after the assertion
  have hlater : ∀ l d' p m, ds1 ++ [raw] = l ++ d' :: m → d'.variant = .pad p →
      (∀ d'' ∈ m, ∀ b', d''.variant = .balance b' → b'.acc ≠ p.acc) → FilledLater ds1 b.raw l.length := by
    intro l d' p m hsplit h1 h2
    rcases List.eq_nil_or_concat m with rfl | ⟨m', x, rfl⟩
    · have := List.append_inj' hsplit rfl
      simp only [List.cons.injEq, and_true] at this
      rw [← this.2, hraw] at h1
      cases h1
    · have hx : ds1 ++ [raw] = (l ++ d' :: m') ++ [x] := by rw [hsplit]; simp
      have := List.append_inj' hx rfl
      simp only [List.cons.injEq, and_true] at this
      obtain ⟨e1, rfl⟩ := this
      exact ⟨l, d', p, m', e1, rfl, h1, fun e => h2 raw (by simp) _ hraw e.symm, fun d'' h => h2 d'' (by simp [h])⟩
  have hnow : ∀ k, FilledLater ds1 b.raw k → ∃ j e x p, r2.st.padOf p.acc = some (j, e) ∧ r2.booked[j]? = some x ∧ x.variant = .pad p ∧
      x.idx = k := by
    rintro k ⟨l, d', p, m, e1, rfl, h1, h2, h3⟩
    obtain ⟨j, e, x, h4, h5, h6, h7⟩ := pending_of_input hl2 he2 (l := l) (m := m ++ [raw]) (d := d') (p := p) (by rw [e1]; simp) h1 (by
      intro d'' hd'' b' hb'
      rcases List.mem_append.1 hd'' with h | h
      · exact h3 d'' h b' hb'
      · rw [List.mem_singleton] at h
        subst h
        rw [hraw] at hb'
        cases hb'
        exact fun e => h2 e.symm)
    exact ⟨j, e, x, p, h4, h5, h6, h7⟩
  obtain ⟨he1, st', v, v2, bk, hdir, hbe, rfl⟩ := errors_nil_of_step hs he2
  rcases State.directive_ok hdir with ⟨t, hv', -⟩ | ⟨b', hv', hbal, rfl⟩ | ⟨op, hv', -⟩ |
    ⟨cl, hv', -⟩ | ⟨p, v', hv', -⟩ | ⟨hpl, -⟩
  · rw [hv'] at hraw; cases hraw
  rotate_left
  · rw [hv'] at hraw; cases hraw
  · rw [hv'] at hraw; cases hraw
  · rw [hv'] at hraw; cases hraw
  · rw [hraw] at hpl; simp [plainVariant] at hpl
  rw [hv'] at hraw
  cases hraw
  set b' := b.raw with hb'
  simp only [Option.map_none, Option.toList_none, List.append_nil] at *
  have hpend1 := PendInv.loop hl1 he1
  have hbklen : bk.length = pre.length := by
    obtain ⟨y, -, -, -, ⟨-, -, -, rfl⟩ | ⟨m, -, -, -, -, rfl⟩ | ⟨m, k, e0, -, -, hf⟩⟩ := State.balance_ok hbal
    · exact hlen
    · exact hlen
    · obtain ⟨d1, p, d2, t, src, -, -, -, -, rfl, -⟩ := State.fillPad_ok hf
      simpa using hlen
  have hsum : heldAt ds1 b' pre = rolledUp bk b'.acc b'.cur := by
    unfold heldAt rolledUp
    apply sumUnits_filter_congr _ _ hbklen.symm
    intro i x y hx hy
    have hlt := (List.getElem?_eq_some_iff.1 hy).1
    have hxr : r.booked[i]? = some x := by
      rw [hb, hout, List.getElem?_append_left (by omega)]; exact hx
    have hy2 : (bk ++ [mkBooked ds1.length raw v])[i]? = some y := by
      rw [List.getElem?_append_left hlt]; exact hy
    rcases hext.booked i y hy2 with h1 | ⟨a, j, e, t, src, cur, m, rfl, k1, k2, k3, k4, k5, -⟩
    · rw [hxr] at h1
      cases h1
      by_cases hk : FilledLater ds1 b' x.idx
      · simp only [hk, not_true_eq_false, decide_false, Bool.false_eq_true, if_false]
        obtain ⟨j, e, z, p, h1, h2, h3, h4⟩ := hnow _ hk
        obtain ⟨f, q, f2, u, g1, g2, g3, g4, g5, g6, g7, g8⟩ := hi2.padAt h1
        rcases image_pad himg h2 h3 hy2 h4.symm with rfl | rfl
        · rw [h2] at hy2
          cases hy2
          simp [postingsOf, h3, sumP_nil]
        · rw [g5] at hy2
          cases hy2
          simp [postingsOf, g6, g7, sumP_nil]
      · simp [hk]
    · rw [hxr] at k5
      simp only [Option.some.injEq] at k5
      have hk : FilledLater ds1 b' x.idx := by
        obtain ⟨l, d', p, m', h1, h2, h3, -, h4, h5⟩ := hpend2 a j e k1
        obtain ⟨f, q, f2, u, g1, g2, g3, g4, g5, g6, g7, g8⟩ := hi2.padAt k1
        rw [hy2] at g5
        cases g5
        have : x.idx = l.length := by
          rw [k5]
          show y.idx = l.length
          rw [g8]
          rw [h4] at g4
          exact (congrArg ElementIdx.directive g4).symm
        rw [this]
        exact hlater l d' p m' h1 h2 (by rw [h3]; exact h5)
      simp only [hk, not_true_eq_false, decide_false, Bool.false_eq_true, if_false]
      simp [postingsOf, k3, k4, sumP_nil]
  rw [hsum]
  have hheld1 : r1.st.held (fun x => Below b'.acc x) b'.cur = rolledUp r1.booked b'.acc b'.cur := by
    rw [held_loop hL hl1 he1]; simp [rolledUp]
  have hnone : ∀ source, Pads ds1 b' source → ∃ j e, r1.st.padOf b'.acc = some (j, e) ∧ padSource r1.booked j = some source := by
    rintro source ⟨l, d', p, m, e1, h1, h2, rfl, h3⟩
    obtain ⟨j, e, x, h4, h5, h6, h7⟩ := pending_of_input hl1 he1 e1 h1 (by rw [h2]; exact h3)
    exact ⟨j, e, by rw [← h2]; exact h4, by simp [padSource, h5, h6]⟩
  obtain ⟨y, hop, hy, -, ⟨hm, hyp, rfl, rfl⟩ | ⟨m, hm, hyp, rfl, rfl, rfl⟩ | ⟨m, k, e0, hm, hyp, hf⟩⟩ := State.balance_ok hbal
  · right
    rw [marginOf_none_iff hfair, hheld1] at hm
    refine ⟨?_, hm⟩
    intro source hp
    obtain ⟨j, e, h1, -⟩ := hnone source hp
    obtain ⟨y', hy', hyp'⟩ := State.padOf_some.1 h1
    rw [hy] at hy'
    cases hy'
    have := balanceErrors_nil hbe
    simp [hyp'] at this
  · have := balanceErrors_nil hbe
    simp at this
  · left
    obtain ⟨d1, p, d2, t, src', h1, h2, h3, h4, rfl, h6, rfl, rfl⟩ := State.fillPad_ok hf
    have hpo := State.padOf_some.2 ⟨y, hy, hyp⟩
    obtain ⟨f, q, f2, u, g1, g2, g3, g4, g5, g6, g7, g8⟩ := hi1.pad _ _ _ _ hy hyp
    rw [h3] at g5; cases g5
    rw [h4] at g6; cases g6
    obtain ⟨l, d', p', m', e1, e2, e3, e4, -, e5⟩ := hpend1 _ _ _ hpo
    have hp' : p'.source = p.source := by simpa [padSource, h1, h2] using e4.symm
    refine ⟨p.source, ⟨l, d', p', m', e1, e2, e3, hp', e5⟩, ?_⟩
    have hm' := marginOf_some hfair hm
    rw [hheld1] at hm'
    have key : rolledUp (r1.booked.set (k + 1) (d2.withPostings t (calculateBalancePadPostings b'.cur m b'.acc p.source)))
        b'.acc b'.cur = rolledUp r1.booked b'.acc b'.cur + (m.val - if Below b'.acc p.source then m.val else 0) := by
      unfold rolledUp
      rw [sumUnits_set _ h3]
      have e1 : postingsOf d2 = [] := by simp [postingsOf, h4, g7]
      have e2 : postingsOf (d2.withPostings t (calculateBalancePadPostings b'.cur m b'.acc p.source)) =
        calculateBalancePadPostings b'.cur m b'.acc p.source := rfl
      rw [e1, e2]
      have e3 := sumP_pair (fun q => Below b'.acc q) b'.cur b'.cur m b'.acc p.source
      simp only [decide_eq_true_eq] at e3
      rw [e3]
      simp only [Spec.Below.refl, and_self, if_true, and_true, sumP_nil]
      ring
    rw [key]
    by_cases hB : Below b'.acc p.source
    · simp only [hB, if_true, sub_self, add_zero]
      by_contra hle
      have : r1.st.marginOf (envOf L o order) b' = none := by
        rw [marginOf_none_iff hfair, hheld1]; exact not_lt.1 hle
      rw [this] at hm; cases hm
    · simp only [hB, if_false, sub_zero]
      rw [hm']
      ring

namespace C06Witness

/-- The assertion that E is empty. -/
def empty : Raw.Balance := { acc := e, units := ⟨0, 0⟩, cur := Ex.nzd }

/-- The pad of A, which comes before it, is filled later. -/
theorem filled_later : FilledLater (ledger.take 3) empty 2 :=
  ⟨ledger.take 2, Toy.mkPad 2 a e, { acc := a, source := e }, [], rfl, rfl, rfl, by decide, by simp⟩

/-- The assertion that A holds 100 fills it. -/
theorem fills : Pads (ledger.take 4) { acc := a, units := ⟨100, 0⟩, cur := Ex.nzd } e :=
  ⟨ledger.take 2, Toy.mkPad 2 a e, { acc := a, source := e }, [Toy.mkBal 3 e ⟨0, 0⟩ Ex.nzd], rfl, rfl, rfl, rfl, by
    intro d hd b hb
    rw [List.mem_singleton] at hd
    subst hd
    cases hb
    decide⟩

/-- So E is empty at the assertion, but for the pad which is filled later, though it holds -100 in the returned ledger (`C06_not_always`). -/
theorem exact : heldAt (ledger.take 3) empty (out.take 4) = 0 := by
  have hsplit : out = out.take 4 ++ { idx := 3, date := Toy.day 3, variant := .balance { raw := empty } } :: out.drop 5 := by decide +kernel
  rcases C06_exact Toy.lib Toy.lib_lawful id (fun _ => List.Perm.refl _) {} ledger out [] ok _ _ _ _ hsplit rfl with
    ⟨source, ⟨l, d, p, m, h1, h2, h3, -⟩, -⟩ | ⟨-, h⟩
  · have hd : d ∈ ledger.take 3 := by
      show d ∈ ledger.take (Booked.Directive.idx { idx := 3, date := Toy.day 3, variant := .balance { raw := empty } })
      rw [h1]
      simp
    simp only [ledger, List.take_succ_cons, List.take_zero, List.mem_cons, List.not_mem_nil, or_false] at hd
    rcases hd with rfl | rfl | rfl <;> cases h2
    exact absurd h3 (by decide)
  · simpa [empty, Dec.val, tolerance] using h

end C06Witness

end Limabean
