/-
C74: decimals of limited size.

`bookIn` books with the operations `A` on decimals, any which meet `Arith.Lawful`, and with any order of the accounts of its hash map;
`book` computes exactly. If what is posted is not too large, both answer the same, but for the number of decimal places of the amounts
of pads. Without that it fails: the sum of what subaccounts hold may overflow, depending on the order, and the number of decimal places of
the amount of a pad depends on the order too.
-/
import Verif.Proofs.PlacesReport
import Verif.Props.Examples

namespace Limabean
open Spec

variable {L : BookLib}

/-- C74, from exact to limited. What is missing: ledgers with larger amounts, see `C74_false`, and the number of decimal places of the
amounts of pads, see `C74_places_false`. -/
theorem C74_partial (hL : L.Lawful) {E : L.Pos → L.Pos → Prop} (hE : PlacesBlind L E) (hC : CountsPlaces L) {A : Arith} (hA : A.Lawful)
    {order order' : AMap Str (Account L) → AMap Str (Account L)} (hf : ∀ m, (order m).Perm m) (hf' : ∀ m, (order' m).Perm m)
    {o : BookOptions} {ds : List Raw.Directive} {out : List Booked.Directive} {ws : List IndexedReport}
    (h : book L order o ds = .success out ws) {n : Nat} (hm : Moderate n o.tolerance.multiplier ds out) :
    ∃ out', bookIn A L order' o ds = .success out' ws ∧ List.Forall₂ DirectiveNear out' out := by
  obtain ⟨r, h1, h2, h3, rfl, rfl⟩ := collect_success h
  obtain ⟨q, g1, g2⟩ := Lock.loop_of_exact (env := envOf L o order') (env' := envOf L o order) hA hL hE hC hf' hf rfl rfl hm.places h2 hm.postings (Lock.init E n)
    (fun d hd b hb => ⟨(hm.asserted d hd b hb).1, (hm.asserted d hd b hb).2, hm.tolerance d hd b hb⟩) h1
  refine ⟨q.booked, ?_, g2.ledger⟩
  unfold bookIn
  rw [collectIn_success]
  exact ⟨q, g1, g2.cleanIn, (g2.pads (env := envOf L o order') (env' := envOf L o order) hf' hf).2 h3, rfl, g2.state.warnings⟩

/-- C74, of an assertion which fails: after a ledger which is accepted, an assertion which is reported is reported with decimals of limited
size as well, in the same words, with the same amounts, and with the same table, but for the number of decimal places. What is missing: as
above, and ledgers with more than one fault. -/
theorem C74_failed_partial (hL : L.Lawful) {E : L.Pos → L.Pos → Prop} (hE : PlacesBlind L E) (hC : CountsPlaces L) {A : Arith} (hA : A.Lawful)
    {order order' : AMap Str (Account L) → AMap Str (Account L)} (hf : ∀ m, (order m).Perm m) (hf' : ∀ m, (order' m).Perm m)
    {o : BookOptions} {ds : List Raw.Directive} {out : List Booked.Directive} {ws : List IndexedReport}
    (h : book L order o ds = .success out ws) {d : Raw.Directive} {b : Raw.Balance} (hv : d.variant = .balance b)
    {n : Nat} (hm : Moderate n o.tolerance.multiplier (ds ++ [d]) out) (hall : everything out * 10 ^ n < 2 ^ 96)
    (hbal : ∀ x ∈ out, ∀ bal, x.variant = .balance bal →
      bal.raw.units.s ≤ n ∧ (everything out + |bal.raw.units.val|) * 10 ^ n < 2 ^ 96)
    {es : List IndexedReport} (hfail : book L order o (ds ++ [d]) = .failure es) :
    ∃ es', bookIn A L order' o (ds ++ [d]) = .failure es' ∧ List.Forall₂ ReportNear es' es := by
  obtain ⟨r, h1, h2, h3, rfl, rfl⟩ := collect_success h
  obtain ⟨q, g1, g2⟩ := Lock.loop_of_exact (env := envOf L o order') (env' := envOf L o order) hA hL hE hC hf' hf rfl rfl hm.places h2
    hm.postings (Lock.init E n) (fun d hd b hb => ⟨(hm.asserted d (List.mem_append_left _ hd) b hb).1,
      (hm.asserted d (List.mem_append_left _ hd) b hb).2, hm.tolerance d (List.mem_append_left _ hd) b hb⟩) h1
  have hpads := (leftOverPads_nil (env := envOf L o order) hf).1 h3
  have hpadsq := (like_pads g2.state.accounts).2 hpads
  obtain ⟨hb1, hb2⟩ := hm.asserted d (by simp) b hv
  have hb3 := hm.tolerance d (by simp) b hv
  have hhold := holdings_le b.cur g2.inv.wfA (fun S => g2.held S b.cur)
  obtain ⟨x, hx1, hx2, hx3⟩ := marginIn_exact (env := envOf L o order') (env' := envOf L o order) hA hE hf' hf rfl g2.state hm.places g2.places hb1
    (lt_of_le_of_lt (mul_le_mul_of_nonneg_right (by linarith) (by positivity)) hb2) hb3
  unfold book collect at hfail
  unfold bookIn collectIn
  rw [Run.loop_append, h1] at hfail
  rw [Run.loopIn_append, g1]
  simp only [Option.bind_some, Run.loop, Run.loopIn, Run.step, Run.stepIn, State.directive, State.directiveIn, hv, balance_with,
    State.balanceIn, hx1] at hfail ⊢
  generalize r.st.marginOf (envOf L o order) b = y at hx2 hfail
  generalize ({ directive := 0 + ds.length } : ElementIdx) = e at hfail ⊢
  unfold State.balanceWith at hfail ⊢
  have hget := g2.state.getValidAccount b.acc e
  generalize hQ : q.st.getValidAccount b.acc e = Q at hget ⊢
  generalize hR : r.st.getValidAccount b.acc e = R at hget hfail
  have hlq := hpadsq
  rw [← leftOverPads_nil (env := envOf L o order') hf'] at hlq
  cases hget with
  | err X =>
    simp only [Run.validate, h2, g2.cleanIn, h3, hlq, List.nil_append, List.append_nil, List.isEmpty_cons, Bool.false_eq_true, if_false,
      Outcome.failure.injEq] at hfail ⊢
    exact ⟨_, rfl, by rw [← hfail]; exact .cons (ReportNear.refl _) .nil⟩
  | panic => cases hfail
  | @ok a a' ha =>
    rw [State.getValidAccount_ok] at hQ hR
    dsimp only at hfail ⊢
    rw [ha.validateCurrency]
    cases hcv : a'.validateCurrency b.cur e with
    | some X =>
      simp only [hcv, Run.validate, h2, g2.cleanIn, h3, hlq, List.nil_append, List.append_nil, List.isEmpty_cons, Bool.false_eq_true, if_false,
        Outcome.failure.injEq] at hfail ⊢
      exact ⟨_, rfl, by rw [← hfail]; exact .cons (ReportNear.refl _) .nil⟩
    | none =>
      have hap : a.pad = none := hpadsq _ (AMap.mem_of_get hQ.2)
      have hap' : a'.pad = none := hpads _ (AMap.mem_of_get hR.2)
      have keep : ∀ {st : State L} (acc : Str) (c : Account L), (∀ ka ∈ st.accounts, ka.2.pad = none) → c.pad = none →
          ∀ ka ∈ (st.setAccount acc c).accounts, ka.2.pad = none := by
        intro st acc c hst hc ka hka
        rcases AMap.mem_set hka with rfl | hka
        · exact hc
        · exact hst ka hka
      rw [hcv] at hfail
      dsimp only at hfail ⊢
      rw [hap'] at hfail
      rw [hap]
      cases hx2 with
      | none =>
        exfalso
        have hl2 := (leftOverPads_nil (env := envOf L o order) hf).2 (keep b.acc (a'.advance r.booked.length) hpads rfl)
        simp [balanceErrors, Run.validate, h2, hl2] at hfail
      | @some u v huv =>
        have hadv : AccountNear E (a.advance r.booked.length) (a'.advance r.booked.length) :=
          ⟨ha.allowed, ha.positions, ha.opened, rfl, by simp only [Account.advance, ha.window], ha.booking⟩
        have hadj : AccountNear E ((a.advance r.booked.length).adjustAdd b.cur u) ((a'.advance r.booked.length).adjustAdd b.cur v) :=
          ⟨hadv.allowed, hE.accumulate _ _ _ _ _ _ hadv.positions huv, hadv.opened, hadv.pad, hadv.window, hadv.booking⟩
        have hst := g2.state.setAccount b.acc hadj
        have hl1 := (leftOverPads_nil (env := envOf L o order') hf').2 (keep b.acc ((a.advance r.booked.length).adjustAdd b.cur u) hpadsq rfl)
        have hl2 := (leftOverPads_nil (env := envOf L o order) hf).2 (keep b.acc ((a'.advance r.booked.length).adjustAdd b.cur v) hpads rfl)
        rw [g2.ledger.length_eq]
        dsimp only at hfail ⊢
        simp only [balanceErrors, balanceErrorsIn, Option.map_none, List.nil_append] at hfail ⊢
        cases hrep : (r.st.setAccount b.acc ((a'.advance r.booked.length).adjustAdd b.cur v)).balanceReport b.acc v b.cur e r.booked with
        | none => rw [hrep] at hfail; cases hfail
        | some R =>
          obtain ⟨R', k1, k2⟩ := balanceReportIn_near hA hm.places hst g2.ledger g2.posted hall hbal huv hrep
          rw [hrep] at hfail
          rw [k1]
          simp only [Run.validate, h2, g2.cleanIn, hl1, hl2, List.nil_append, List.append_nil, List.isEmpty_cons, Bool.false_eq_true, if_false,
            Outcome.failure.injEq] at hfail ⊢
          exact ⟨_, rfl, by rw [← hfail]; exact .cons k2 .nil⟩

/-- C74, from limited to exact: nothing is accepted which should not be. What is missing: as above. -/
theorem C74_sound_partial (hL : L.Lawful) {E : L.Pos → L.Pos → Prop} (hE : PlacesBlind L E) (hC : CountsPlaces L) {A : Arith} (hA : A.Lawful)
    {order order' : AMap Str (Account L) → AMap Str (Account L)} (hf : ∀ m, (order m).Perm m) (hf' : ∀ m, (order' m).Perm m)
    {o : BookOptions} {ds : List Raw.Directive} {out : List Booked.Directive} {ws : List IndexedReport}
    (h : bookIn A L order o ds = .success out ws) {n : Nat} (hm : Moderate n o.tolerance.multiplier ds out) :
    ∃ out', book L order' o ds = .success out' ws ∧ List.Forall₂ DirectiveNear out out' := by
  unfold bookIn at h
  rw [collectIn_success] at h
  obtain ⟨q, h1, h2, h3, rfl, rfl⟩ := h
  obtain ⟨r, g1, g2⟩ := Lock.loop_of_bounded (env := envOf L o order) (env' := envOf L o order') hA hL hE hC hf hf' rfl rfl hm.places h2 hm.postings (Lock.init E n)
    StInv.init (fun d hd b hb => ⟨(hm.asserted d hd b hb).1, (hm.asserted d hd b hb).2, hm.tolerance d hd b hb⟩) h1
  refine ⟨r.booked, ?_, g2.ledger⟩
  unfold book
  rw [collect_success_iff]
  exact ⟨r, g1, g2.clean, (g2.pads (env := envOf L o order) (env' := envOf L o order') hf hf').1 h3, rfl, g2.state.warnings.symm⟩

/-! ### The assumptions on the library can be met -/

namespace Toy

/-- Holdings of the same units. -/
def SameUnits (p q : Pos) : Prop := ∀ c, (units p c).val = (units q c).val

theorem accumulate_same {p q : Pos} {u v : Dec} {c : Str} {b : Booking} (h : SameUnits p q) (huv : u.val = v.val) :
    SameUnits (accumulate p u c b) (accumulate q v c b) := by
  intro c'
  rw [val_accumulate, val_accumulate, h c', huv]

theorem lib_placesBlind : PlacesBlind lib SameUnits where
  refl := fun _ _ => rfl
  units := fun _ _ h => h
  accumulate := fun _ _ _ _ _ b h huv => accumulate_same (b := b) h huv
  book := by
    intro d ps t inv inv' bk h
    show (∃ x y, bookAll d ps t inv bk = .error x ∧ bookAll d ps t inv' bk = .error y) ∨
      (∃ r r', bookAll d ps t inv bk = .ok r ∧ bookAll d ps t inv' bk = .ok r' ∧ r.interpolated = r'.interpolated ∧
        List.Forall₂ (fun x y => x.1 = y.1 ∧ SameUnits x.2 y.2) r.updated r'.updated)
    unfold bookAll
    by_cases hc : complete ps = true
    · rw [if_pos hc, if_pos hc]
      refine .inr ⟨_, _, rfl, rfl, rfl, ?_⟩
      dsimp only
      rw [List.forall₂_map_left_iff, List.forall₂_map_right_iff, List.forall₂_same]
      intro a _
      refine ⟨rfl, fun c => ?_⟩
      rw [val_applyAll, val_applyAll]
      congr 1
      have := h a
      generalize inv a = x at this
      generalize inv' a = y at this
      cases this with
      | none => rfl
      | some hxy => exact hxy c
    · rw [if_neg hc, if_neg hc]
      exact .inl ⟨_, _, rfl, rfl⟩

theorem accumulate_places {n : Nat} {p : Pos} {u : Dec} {c : Str} {b : Booking} {c' : Str} (h : (units p c').s ≤ n) (hu : u.s ≤ n) :
    (units (accumulate p u c b) c').s ≤ n := by
  unfold accumulate
  rw [units, AMap.get_set]
  split
  · rename_i e
    subst e
    exact max_le h hu
  · exact h

theorem addPosting_places {n : Nat} {b : Booking} {p : Pos} {i : Interpolated} (h : ∀ c', (units p c').s ≤ n) (hi : LotPlaces n i) :
    ∀ c', (units (addPosting b p i) c').s ≤ n := by
  unfold addPosting
  unfold LotPlaces at hi
  cases hc : i.cost with
  | none =>
    rw [hc] at hi
    exact fun c' => accumulate_places (h c') hi
  | some ls =>
    rw [hc] at hi
    dsimp only at hi ⊢
    clear hc
    induction ls generalizing p with
    | nil => exact h
    | cons l ls ih => exact ih (fun c' => accumulate_places (h c') (hi l (by simp))) (fun l hl => hi l (by simp [hl]))

theorem applyAll_places {n : Nat} {b : Booking} {acc : Str} : ∀ (ps : List Raw.PostingSpec) (is : List Interpolated) (p : Pos),
    (∀ c', (units p c').s ≤ n) → (∀ i ∈ is, LotPlaces n i) → ∀ c', (units (applyAll b acc p ps is) c').s ≤ n
  | [], _, p, h, _ => by simpa [applyAll] using h
  | q :: ps, [], p, h, _ => by simpa [applyAll] using h
  | q :: ps, i :: is, p, h, hi => by
    unfold applyAll
    refine applyAll_places ps is _ ?_ (fun j hj => hi j (by simp [hj]))
    split
    · exact addPosting_places h (hi i (by simp))
    · exact h

theorem lib_countsPlaces : CountsPlaces lib where
  empty := fun _ => rfl
  accumulate := fun _ _ _ _ b _ h hu => accumulate_places (b := b) h hu
  book := by
    intro n d ps t inv bk r h hi hl a q hq c
    have h : bookAll d ps t inv bk = .ok r := h
    rw [((mem_updated h a q).1 hq).2]
    refine applyAll_places _ _ _ ?_ (by rw [bookAll_ok h] at hl; exact hl) c
    intro c'
    cases ha : inv a with
    | none => exact Nat.zero_le _
    | some p => exact hi a p c' ha

end Toy

/-! ### Too large -/

theorem loopIn_append {A : Arith} {env : Env L} : ∀ (ds es : List Raw.Directive) (k : Nat) (q : Run L),
    (∀ d ∈ ds, ∀ b, d.variant ≠ .balance b) → Run.loopIn A env k (ds ++ es) q =
      match Run.loop env k ds q with
      | some q' => Run.loopIn A env (k + ds.length) es q'
      | none => none
  | [], es, k, q, _ => rfl
  | d :: ds, es, k, q, h => by
    rw [List.cons_append, Run.loopIn, Run.loop, stepIn_eq (h d (by simp))]
    cases q.step env k d with
    | none => rfl
    | some q' =>
      dsimp only
      rw [loopIn_append ds es (k + 1) q' fun e he => h e (by simp [he]), List.length_cons, ← add_assoc, add_right_comm]

namespace Ex

/-- Three subaccounts, of which two hold much and one owes much. -/
def bankX : Str := str% "Assets:Bank:X"
def bankY : Str := str% "Assets:Bank:Y"
def bankZ : Str := str% "Assets:Bank:Z"

/-- The ledger before an assertion: the subaccounts hold `x`, `y` and `z`. -/
def three (x y z : Dec) : List Raw.Directive :=
  [Toy.mkOpen 1 equity, Toy.mkOpen 1 bank, Toy.mkOpen 1 bankX, Toy.mkOpen 1 bankY, Toy.mkOpen 1 bankZ,
   Toy.mkTxn 2 [(bankX, x, nzd), (equity, x.neg, nzd)], Toy.mkTxn 2 [(bankY, y, nzd), (equity, y.neg, nzd)],
   Toy.mkTxn 2 [(bankZ, z, nzd), (equity, z.neg, nzd)]]

/-- Half of what can be represented, and more. -/
def vast : Dec := ⟨5 * 10 ^ 28, 0⟩

/-- What the bank holds is asserted, with its subaccounts. -/
def overflows : List Raw.Directive := three vast vast vast.neg ++ [Toy.mkBal 3 bank vast nzd]

/-- What there is to be added up for the assertion, in an order. -/
def summands (order : AMap Str (Account Toy.lib) → AMap Str (Account Toy.lib)) (ds : List Raw.Directive) : Option (List Dec) :=
  (Run.loop (envOf Toy.lib {} order) 0 ds {}).map fun r => ((order r.st.accounts).filter fun ca => isNonstrictSubaccount bank ca.1).map
    fun ca => Toy.units ca.2.positions nzd

end Ex

/-- C74 fails: this ledger is accepted by exact computation, and so it is with decimals as `rust_decimal` has them if the accounts happen
to come in the reverse order; but with decimals of limited size, whatever else they do, booking panics if the accounts come in the order
in which they were opened. -/
theorem C74_false :
    (∃ out, book Toy.lib id {} Ex.overflows = .success out []) ∧
    (∃ out, bookIn rustDecimal Toy.lib List.reverse {} Ex.overflows = .success out []) ∧
    ∀ A : Arith, A.Lawful → bookIn A Toy.lib id {} Ex.overflows = .panic := by
  refine ⟨?_, ?_, ?_⟩
  · have h : (match book Toy.lib id {} Ex.overflows with | .success _ ws => ws.isEmpty | _ => false) = true := by decide +kernel
    split at h
    · rename_i out ws e
      rw [e, List.isEmpty_iff.1 h]
      exact ⟨out, rfl⟩
    · cases h
  · have h : (match bookIn rustDecimal Toy.lib List.reverse {} Ex.overflows with | .success _ ws => ws.isEmpty | _ => false) = true := by
      decide +kernel
    split at h
    · rename_i out ws e
      rw [e, List.isEmpty_iff.1 h]
      exact ⟨out, rfl⟩
    · cases h
  · intro A hA
    have h : Ex.summands id (Ex.three Ex.vast Ex.vast Ex.vast.neg) = some [Dec.zero, Ex.vast, Ex.vast, Ex.vast.neg] := by decide +kernel
    unfold Ex.summands at h
    obtain ⟨r, h1, h2⟩ := Option.map_eq_some_iff.1 h
    have hz : Dec.zero.fits = true := by decide +kernel
    have hv : Ex.vast.fits = true := by decide +kernel
    -- whole numbers are what they are worth
    have whole : ∀ {x y : Dec}, x.s ≤ 0 → y.s ≤ 0 → x.val = y.val → x = y := by
      rintro ⟨m, s⟩ ⟨m', s'⟩ hx hy h
      have hx' : s = 0 := Nat.le_zero.1 hx
      have hy' : s' = 0 := Nat.le_zero.1 hy
      subst hx' hy'
      simp only [Dec.val, pow_zero, div_one, Int.cast_inj] at h
      rw [h]
    obtain ⟨z, a1, a2, a3⟩ := hA.add_exact Dec.zero Dec.zero hz hz (by decide +kernel)
    obtain ⟨v, b1, b2, b3⟩ := hA.add_exact Dec.zero Ex.vast hz hv (by decide +kernel)
    have ez : z = Dec.zero := whole (by simpa [Dec.zero] using a3) (le_refl _) (by rw [a2]; simp)
    have ev : v = Ex.vast := whole (by simpa [Dec.zero, Ex.vast] using b3) (le_refl _) (by rw [b2]; simp)
    subst ez ev
    have hover := hA.add_over Ex.vast Ex.vast (by norm_num [Ex.vast, Dec.val])
    have htot : r.st.totalIn A (envOf Toy.lib {} id) Ex.bank Ex.nzd = none := by
      unfold State.totalIn
      have : (((envOf Toy.lib {} id).order r.st.accounts).filter fun ca => isNonstrictSubaccount Ex.bank ca.1).map
          (fun ca => Toy.lib.units ca.2.positions Ex.nzd) = [Dec.zero, Ex.vast, Ex.vast, Ex.vast.neg] := h2
      rw [this]
      simp [Arith.sumFrom, a1, b1, hover]
    have hstep : r.stepIn A (envOf Toy.lib {} id) 8 (Toy.mkBal 3 Ex.bank Ex.vast Ex.nzd) = none := by
      unfold Run.stepIn State.directiveIn State.balanceIn State.marginIn
      have : toleranceIn A (envOf Toy.lib {} id) { acc := Ex.bank, units := Ex.vast, cur := Ex.nzd, tolerance := none } = some Dec.zero := rfl
      simp only [Toy.mkBal, this, htot]
    unfold bookIn collectIn Ex.overflows
    rw [loopIn_append _ _ _ _ (by
      intro d hd b
      simp only [Ex.three, Toy.mkOpen, Toy.mkTxn, List.mem_cons, List.not_mem_nil, or_false] at hd
      rcases hd with rfl | rfl | rfl | rfl | rfl | rfl | rfl | rfl <;> exact fun h => by cases h), h1]
    dsimp only
    have : 0 + (Ex.three Ex.vast Ex.vast Ex.vast.neg).length = 8 := rfl
    rw [this, Run.loopIn, hstep]

namespace Ex

/-- A pad for which `1.00`, `-1.00` and `1` are added up. -/
def padded : List Raw.Directive := three ⟨100, 2⟩ ⟨-100, 2⟩ ⟨1, 0⟩ ++ [Toy.mkPad 3 bank equity, Toy.mkBal 4 bank ⟨5, 0⟩ nzd]

/-- The amounts which a pad posts, with their decimal places. -/
def padAmounts (order : AMap Str (Account Toy.lib) → AMap Str (Account Toy.lib)) : List Dec :=
  match bookIn rustDecimal Toy.lib order {} padded with
  | .success out _ => ((postings out).drop 6).map fun p => p.units
  | _ => []

end Ex

/-- C74 fails as to decimal places even if amounts are small: what a pad posts has two decimal places or none, depending on the order in
which the accounts happen to come. -/
theorem C74_places_false : rustDecimal.Lawful ∧ Ex.padAmounts id = [⟨4, 0⟩, ⟨-4, 0⟩] ∧ Ex.padAmounts List.reverse = [⟨400, 2⟩, ⟨-400, 2⟩] :=
  ⟨rustDecimal_lawful, by decide +kernel, by decide +kernel⟩

namespace Ex

/-- What is booked of it. -/
def paddedOut : List Booked.Directive :=
  match book Toy.lib id {} padded with
  | .success out _ => out
  | _ => []

end Ex

/-- Non-vacuity of `C74_partial`: that ledger is accepted, and its amounts are moderate. -/
example : book Toy.lib id {} Ex.padded = .success Ex.paddedOut [] ∧ Moderate 2 none Ex.padded Ex.paddedOut := by
  have hp : (postings Ex.paddedOut).map (fun p => (p.cur, p.units)) = [(Ex.nzd, ⟨100, 2⟩), (Ex.nzd, ⟨-100, 2⟩), (Ex.nzd, ⟨-100, 2⟩),
      (Ex.nzd, ⟨100, 2⟩), (Ex.nzd, ⟨1, 0⟩), (Ex.nzd, ⟨-1, 0⟩), (Ex.nzd, ⟨400, 2⟩), (Ex.nzd, ⟨-400, 2⟩)] := by decide +kernel
  have ht : turnover Ex.paddedOut Ex.nzd = 14 := by
    have : turnover Ex.paddedOut Ex.nzd =
        ((((postings Ex.paddedOut).map fun p => (p.cur, p.units)).filter fun x => x.1 = Ex.nzd).map fun x => |x.2.val|).sum := by
      unfold turnover
      rw [List.filter_map, List.map_map]
      rfl
    rw [this, hp]
    norm_num [Dec.val, abs_of_pos, abs_of_neg]
  have hb : ∀ d ∈ Ex.padded, ∀ b, d.variant = .balance b → b = { acc := Ex.bank, units := ⟨5, 0⟩, cur := Ex.nzd, tolerance := none } := by
    intro d hd b hb
    simp only [Ex.padded, Ex.three, List.mem_append, List.mem_cons, List.not_mem_nil, or_false] at hd
    rcases hd with (rfl | rfl | rfl | rfl | rfl | rfl | rfl | rfl) | rfl | rfl <;> first | (cases hb; done) | (cases hb; rfl)
  refine ⟨by decide +kernel, by norm_num, ?_, ?_, ?_⟩
  · have : ∀ x ∈ (postings Ex.paddedOut).map (fun p => (p.cur, p.units)), x.2.s ≤ 2 := by rw [hp]; decide
    exact fun p hp => this _ (List.mem_map.2 ⟨p, hp, rfl⟩)
  · intro d hd b h
    rw [hb d hd b h, ht]
    exact ⟨by norm_num, by norm_num [Dec.val]⟩
  · intro d hd b h _
    rw [hb d hd b h]
    exact ⟨by norm_num, by norm_num⟩

namespace Ex

/-- What is booked without pad and assertion. -/
def threeOut : List Booked.Directive :=
  match book Toy.lib id {} (three ⟨100, 2⟩ ⟨-100, 2⟩ ⟨1, 0⟩) with
  | .success out _ => out
  | _ => []

/-- The same with an assertion which fails. -/
def threeWrong : List Raw.Directive := three ⟨100, 2⟩ ⟨-100, 2⟩ ⟨1, 0⟩ ++ [Toy.mkBal 4 bank ⟨5, 0⟩ nzd]

/-- What is reported, with decimal places. -/
def wrongBy (r : Outcome) : List (Reason × List (Dec × Dec)) :=
  match r with
  | .failure es => es.map fun r => (r.reason, (r.annotation.getD []).map fun x => (x.units, x.total))
  | _ => []

end Ex

/-- Non-vacuity of `C74_failed_partial`: the sizes are moderate, and the report is the same up to decimal places. -/
example : book Toy.lib id {} (Ex.three ⟨100, 2⟩ ⟨-100, 2⟩ ⟨1, 0⟩) = .success Ex.threeOut [] ∧ Moderate 2 none Ex.threeWrong Ex.threeOut ∧ everything Ex.threeOut * 10 ^ 2 < 2 ^ 96 ∧
    (∀ x ∈ Ex.threeOut, ∀ bal, x.variant = .balance bal →
      bal.raw.units.s ≤ 2 ∧ (everything Ex.threeOut + |bal.raw.units.val|) * 10 ^ 2 < 2 ^ 96) ∧
    Ex.wrongBy (book Toy.lib id {} Ex.threeWrong) =
      [(.accumulated ⟨100, 2⟩ ⟨400, 2⟩ Ex.nzd, [(⟨100, 2⟩, ⟨100, 2⟩), (⟨-100, 2⟩, ⟨0, 2⟩), (⟨1, 0⟩, ⟨100, 2⟩)])] ∧
    Ex.wrongBy (bookIn rustDecimal Toy.lib id {} Ex.threeWrong) =
      [(.accumulated ⟨1, 0⟩ ⟨4, 0⟩ Ex.nzd, [(⟨100, 2⟩, ⟨100, 2⟩), (⟨-100, 2⟩, ⟨0, 2⟩), (⟨1, 0⟩, ⟨1, 0⟩)])] := by
  have hp : (postings Ex.threeOut).map (fun p => (p.cur, p.units)) = [(Ex.nzd, ⟨100, 2⟩), (Ex.nzd, ⟨-100, 2⟩), (Ex.nzd, ⟨-100, 2⟩),
      (Ex.nzd, ⟨100, 2⟩), (Ex.nzd, ⟨1, 0⟩), (Ex.nzd, ⟨-1, 0⟩)] := by decide +kernel
  have hv : everything Ex.threeOut = 6 := by
    have : everything Ex.threeOut = (((postings Ex.threeOut).map fun p => (p.cur, p.units)).map fun x => |x.2.val|).sum := by
      unfold everything
      rw [List.map_map]
      rfl
    rw [this, hp]
    norm_num [Dec.val, abs_of_pos, abs_of_neg]
  have ht : turnover Ex.threeOut Ex.nzd = 6 := by
    have : turnover Ex.threeOut Ex.nzd =
        ((((postings Ex.threeOut).map fun p => (p.cur, p.units)).filter fun x => x.1 = Ex.nzd).map fun x => |x.2.val|).sum := by
      unfold turnover
      rw [List.filter_map, List.map_map]
      rfl
    rw [this, hp]
    norm_num [Dec.val, abs_of_pos, abs_of_neg]
  have hb : ∀ d ∈ Ex.threeWrong, ∀ b, d.variant = .balance b → b = { acc := Ex.bank, units := ⟨5, 0⟩, cur := Ex.nzd, tolerance := none } := by
    intro d hd b hb
    simp only [Ex.threeWrong, Ex.three, List.mem_append, List.mem_cons, List.not_mem_nil, or_false] at hd
    rcases hd with (rfl | rfl | rfl | rfl | rfl | rfl | rfl | rfl) | rfl <;> first | (cases hb; done) | (cases hb; rfl)
  refine ⟨by decide +kernel, ⟨by norm_num, ?_, ?_, ?_⟩, by rw [hv]; norm_num, ?_, by decide +kernel, by decide +kernel⟩
  · have : ∀ x ∈ (postings Ex.threeOut).map (fun p => (p.cur, p.units)), x.2.s ≤ 2 := by rw [hp]; decide
    exact fun p hp => this _ (List.mem_map.2 ⟨p, hp, rfl⟩)
  · intro d hd b h
    rw [hb d hd b h, ht]
    exact ⟨by norm_num, by norm_num [Dec.val]⟩
  · intro d hd b h _
    rw [hb d hd b h]
    exact ⟨by norm_num, by norm_num⟩
  · intro x hx bal h
    have : ∀ x ∈ Ex.threeOut, (match x.variant with | .balance _ => false | _ => true) = true := by decide +kernel
    have := this x hx
    rw [h] at this
    cases this

end Limabean
