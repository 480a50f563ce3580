/-
Booking with decimals of limited size against exact booking.
-/
import Verif.Pod.Bounded
import Verif.Spec.Places
import Verif.Proofs.AttachedLemmas
import Verif.Proofs.Holdings

namespace Limabean

open Spec

variable {L : BookLib} {E : L.Pos → L.Pos → Prop}

/-! ### Sums of moderate size -/

theorem Dec.abs_m (d : Dec) : ((d.m.natAbs : Nat) : ℚ) = |d.val| * 10 ^ d.s := by
  have hp : (0 : ℚ) < 10 ^ d.s := by positivity
  unfold Dec.val
  rw [abs_div, abs_of_pos hp, div_mul_cancel₀ _ hp.ne', ← Int.cast_natCast, Int.natCast_natAbs, Int.cast_abs]

theorem Dec.fits_of {d : Dec} {n : Nat} (hn : n ≤ 28) (hs : d.s ≤ n) (h : |d.val| * 10 ^ n < 2 ^ 96) : d.fits = true := by
  rw [Dec.fits_iff]
  refine ⟨?_, hs.trans hn⟩
  have h1 : ((d.m.natAbs : Nat) : ℚ) < 2 ^ 96 := by
    rw [Dec.abs_m]
    refine lt_of_le_of_lt ?_ h
    refine mul_le_mul_of_nonneg_left ?_ (abs_nonneg _)
    exact pow_le_pow_right₀ (by norm_num) hs
  exact_mod_cast h1

theorem sum_abs_nonneg {α : Type} (f : α → ℚ) (l : List α) : 0 ≤ (l.map fun x => |f x|).sum := by
  refine List.sum_nonneg ?_
  intro x hx
  obtain ⟨y, -, rfl⟩ := List.mem_map.1 hx
  exact abs_nonneg _

theorem sumFrom_small {A : Arith} (hA : A.Lawful) {n : Nat} (hn : n ≤ 28) (l : List Dec) : ∀ t : Dec, t.s ≤ n → (∀ x ∈ l, x.s ≤ n) →
    (|t.val| + (l.map fun x => |x.val|).sum) * 10 ^ n < 2 ^ 96 →
    ∃ r, A.sumFrom t l = some r ∧ r.val = t.val + (l.map Dec.val).sum ∧ r.s ≤ n := by
  induction l with
  | nil => intro t ht _ _; exact ⟨t, rfl, by simp, ht⟩
  | cons x l ih =>
    intro t ht hl h
    have hp : (0 : ℚ) < 10 ^ n := by positivity
    have hx := hl x (by simp)
    simp only [List.map_cons, List.sum_cons] at h
    have h0 := sum_abs_nonneg Dec.val l
    have hsum : |t.val + x.val| ≤ |t.val| + |x.val| := abs_add_le _ _
    have ha0 := abs_nonneg t.val
    have hx0 := abs_nonneg x.val
    have small : ∀ v : ℚ, v ≤ |t.val| + (|x.val| + (l.map fun x => |x.val|).sum) → v * 10 ^ n < 2 ^ 96 :=
      fun v hv => lt_of_le_of_lt (mul_le_mul_of_nonneg_right hv hp.le) h
    obtain ⟨r, h1, h2, h3⟩ := hA.add_exact t x (Dec.fits_of hn ht (small _ (by linarith))) (Dec.fits_of hn hx (small _ (by linarith)))
      (Dec.fits_of hn (by simpa [Dec.add] using ⟨ht, hx⟩) (small _ (by rw [Dec.val_add]; linarith)))
    obtain ⟨r', g1, g2, g3⟩ := ih r (h3.trans (max_le ht hx)) (fun y hy => hl y (List.mem_cons_of_mem _ hy))
      (small _ (by rw [h2]; linarith))
    refine ⟨r', by simp only [Arith.sumFrom, h1, g1], ?_, g3⟩
    rw [g2, h2, List.map_cons, List.sum_cons]
    ring

/-! ### States which are near -/

/-- Accounts which agree but for the decimal places of what they hold. -/
structure AccountNear (E : L.Pos → L.Pos → Prop) (a b : Account L) : Prop where
  allowed : a.allowed = b.allowed
  positions : E a.positions b.positions
  opened : a.opened = b.opened
  pad : a.pad = b.pad
  window : a.window = b.window
  booking : a.booking = b.booking

/-- States which agree but for the decimal places of what is held. -/
structure StateNear (E : L.Pos → L.Pos → Prop) (s t : State L) : Prop where
  opened : s.opened = t.opened
  closed : s.closed = t.closed
  warnings : s.warnings = t.warnings
  accounts : AMap.Like (AccountNear E) s.accounts t.accounts

/-- Not a success. -/
def Res.Bad {σ α : Type} (x : Res σ α) : Prop := ∀ s a, x ≠ .ok s a

/-- Results of steps which both succeed and agree, or both fail. -/
inductive ResNear {α β : Type} (E : L.Pos → L.Pos → Prop) (S : α → β → Prop) : Res (State L) α → Res (State L) β → Prop
  | ok {s t a b} : StateNear E s t → S a b → ResNear E S (.ok s a) (.ok t b)
  | bad {x y} : x.Bad → y.Bad → ResNear E S x y

theorem Res.Bad.err {σ α : Type} (s : σ) (e : IndexedReport) : (Res.err s e : Res σ α).Bad := fun _ _ h => by cases h
theorem Res.Bad.panic {σ α : Type} : (Res.panic : Res σ α).Bad := fun _ _ h => by cases h

section
variable {s t : State L}

theorem AccountNear.validateCurrency {a b : Account L} (h : AccountNear E a b) (cur : Str) (e : ElementIdx) :
    a.validateCurrency cur e = b.validateCurrency cur e := by
  unfold Account.validateCurrency Account.isCurrencyValid
  rw [h.allowed, h.opened]

theorem StateNear.getValidAccount (h : StateNear E s t) (acc : Str) (e : ElementIdx) :
    GotLike (AccountNear E) (s.getValidAccount acc e) (t.getValidAccount acc e) := by
  unfold State.getValidAccount State.validateAccount
  rw [h.opened, h.closed]
  cases (if t.opened.has acc then none else match t.closed.get acc with
    | some closed => some ((e.report .accountClosed).relatedTo closed)
    | none => some (e.report .accountNotOpen)) with
  | some r => exact .err r
  | none =>
    dsimp only
    gen_like hg : (h.accounts.get acc)
    cases hg with
    | none => exact .panic
    | some h => exact .ok h

theorem StateNear.setAccount (h : StateNear E s t) (acc : Str) {a b : Account L} (hab : AccountNear E a b) :
    StateNear E (s.setAccount acc a) (t.setAccount acc b) :=
  ⟨h.opened, h.closed, h.warnings, h.accounts.set acc hab⟩

theorem StateNear.firstPostingError (h : StateNear E s t) (e : ElementIdx) (l : List (Interpolated × Raw.PostingSpec)) (i : Nat) :
    s.firstPostingError e i l = t.firstPostingError e i l := by
  induction l generalizing i with
  | nil => rfl
  | cons x l ih =>
    obtain ⟨ip, p⟩ := x
    simp only [State.firstPostingError]
    rw [show s.validateAccountAndCurrency p.acc ip.currency { directive := e.directive, posting := some i } =
      t.validateAccountAndCurrency p.acc ip.currency { directive := e.directive, posting := some i } by
        unfold State.validateAccountAndCurrency
        gen_like hg : (h.getValidAccount p.acc { directive := e.directive, posting := some i })
        cases hg with
        | ok h => dsimp only; rw [h.validateCurrency]
        | err e => rfl
        | panic => rfl, ih]

theorem StateNear.installInventory (h : StateNear E s t) (e : ElementIdx) {l m : List (Str × L.Pos)}
    (hl : List.Forall₂ (fun x y => x.1 = y.1 ∧ E x.2 y.2) l m) :
    ResNear E (fun _ _ => True) (State.installInventory e s l) (State.installInventory e t m) := by
  induction hl generalizing s t with
  | nil => exact .ok h trivial
  | @cons x y l m hxy _ ih =>
    obtain ⟨acc, pos⟩ := x
    obtain ⟨acc', pos'⟩ := y
    obtain ⟨rfl, h2⟩ := hxy
    simp only [State.installInventory]
    gen_like hg : (h.getValidAccount acc e)
    cases hg with
    | ok hab => exact ih (h.setAccount acc ⟨hab.allowed, h2, hab.opened, hab.pad, hab.window, hab.booking⟩)
    | err r => exact .bad (.err _ _) (.err _ _)
    | panic => exact .bad .panic .panic

theorem StateNear.inventory (h : StateNear E s t) (acc : Str) : Option.Rel E (s.inventory acc) (t.inventory acc) := by
  unfold State.inventory
  gen_like hg : (h.accounts.get acc)
  cases hg with
  | none => exact .none
  | some h => exact .some h.positions

theorem StateNear.bookingFor (h : StateNear E s t) {env env' : Env L} (hd : env.defaultBooking = env'.defaultBooking) :
    s.bookingFor env = t.bookingFor env' := by
  funext acc
  unfold State.bookingFor
  rw [hd]
  gen_like hg : (h.accounts.get acc)
  cases hg with
  | none => rfl
  | some h => simp only [Option.map_some, Option.getD_some, h.booking]

theorem StateNear.transaction (hE : PlacesBlind L E) (h : StateNear E s t) {env env' : Env L} (hd : env.defaultBooking = env'.defaultBooking)
    (ht : env.tolerance = env'.tolerance) (a : Raw.Transaction) (date : Date) (e : ElementIdx) :
    ResNear E Eq (s.transaction env a date e) (t.transaction env' a date e) := by
  unfold State.transaction State.book
  rw [h.bookingFor hd, ht]
  rcases hE.book date a.postings env'.tolerance s.inventory t.inventory (t.bookingFor env') h.inventory with
    ⟨x, y, h1, h2⟩ | ⟨r, r', h1, h2, h3, h4⟩
  · rw [h1, h2]
    cases x <;> cases y <;> exact .bad (.err _ _) (.err _ _)
  · rw [h1, h2]
    dsimp only
    rw [h3, h.firstPostingError e]
    cases t.firstPostingError e 0 (r'.interpolated.zip a.postings) with
    | err x => exact .bad (.err _ _) (.err _ _)
    | panic => exact .bad .panic .panic
    | ok u =>
      dsimp only
      gen_like hg : (h.installInventory e h4)
      cases hg with
      | ok h _ => exact .ok h rfl
      | bad hx hy =>
        rename_i x y
        refine .bad ?_ ?_
        · cases x with
          | ok s u => exact absurd rfl (hx s u)
          | err s e => exact .err _ _
          | panic => exact .panic
        · cases y with
          | ok s u => exact absurd rfl (hy s u)
          | err s e => exact .err _ _
          | panic => exact .panic

theorem StateNear.opn (hE : PlacesBlind L E) (h : StateNear E s t) {env env' : Env L} (hd : env.defaultBooking = env'.defaultBooking)
    (o : Raw.Open) (e : ElementIdx) : ResNear E Eq (s.opn env o e) (t.opn env' o e) := by
  unfold State.opn
  rw [h.opened, hd]
  cases t.opened.get o.acc with
  | some p => exact .bad (.err _ _) (.err _ _)
  | none =>
    dsimp only
    rw [h.closed]
    cases t.closed.get o.acc with
    | some p => exact .bad (.err _ _) (.err _ _)
    | none =>
      dsimp only
      rw [h.warnings]
      exact .ok ⟨rfl, rfl, rfl, h.accounts.set _ ⟨rfl, hE.refl _, rfl, rfl, rfl, rfl⟩⟩ rfl

theorem StateNear.close (h : StateNear E s t) (c : Raw.Close) (e : ElementIdx) : ResNear E Eq (s.close c e) (t.close c e) := by
  unfold State.close
  rw [h.opened, h.closed]
  cases t.opened.get c.acc with
  | none => exact .bad (.err _ _) (.err _ _)
  | some p =>
    dsimp only
    cases t.closed.get c.acc with
    | some p => exact .bad (.err _ _) (.err _ _)
    | none => exact .ok ⟨rfl, rfl, h.warnings, h.accounts⟩ rfl

theorem StateNear.pad (h : StateNear E s t) (p : Raw.Pad) (i : Nat) (e : ElementIdx) :
    ResNear E (fun a b => a = b ∧ a = (.pad p, .transaction { flag := padFlag, postings := [] })) (s.pad p i e) (t.pad p i e) := by
  unfold State.pad
  gen_like hg : (h.getValidAccount p.acc e)
  cases hg with
  | err x => exact .bad (.err _ _) (.err _ _)
  | panic => exact .bad .panic .panic
  | @ok a b hab =>
    dsimp only
    rw [hab.pad]
    cases b.pad with
    | some x => exact .bad (.err _ _) (.err _ _)
    | none => exact .ok (h.setAccount _ ⟨hab.allowed, hab.positions, hab.opened, rfl, hab.window, hab.booking⟩) ⟨rfl, rfl⟩

/-! ### Booked directives which are near -/

theorem PostingNear.refl (p : Booked.Posting) : PostingNear p p := ⟨rfl, rfl⟩

theorem VariantNear.refl (v : Booked.Variant) : VariantNear v v := by
  cases v <;> first | rfl | exact ⟨List.forall₂_same.2 fun p _ => PostingNear.refl p, rfl⟩

/-- Ledgers which are near. -/
abbrev LedgerNear (l m : List Booked.Directive) : Prop := List.Forall₂ DirectiveNear l m

theorem LedgerNear.at {l m : List Booked.Directive} (h : LedgerNear l m) (i : Nat) : Option.Rel DirectiveNear l[i]? m[i]? := by
  induction h generalizing i with
  | nil => exact .none
  | cons h _ ih =>
    cases i with
    | zero => exact .some h
    | succ i => simpa using ih i

theorem LedgerNear.set {l m : List Booked.Directive} (h : LedgerNear l m) (i : Nat) {d e : Booked.Directive}
    (hde : DirectiveNear d e) : LedgerNear (l.set i d) (m.set i e) := by
  induction h generalizing i with
  | nil => exact .nil
  | cons h hr ih =>
    cases i with
    | zero => exact .cons hde hr
    | succ i => exact .cons h (ih i)

theorem setPostingsAt_near {l m : List Booked.Directive} (h : LedgerNear l m) (i : Nat) {ps qs : List Booked.Posting}
    (hp : List.Forall₂ PostingNear ps qs) : Option.Rel LedgerNear (setPostingsAt l i ps) (setPostingsAt m i qs) := by
  unfold setPostingsAt
  gen_like hg : (h.at i)
  cases hg with
  | none => exact .none
  | @some d e hde =>
    have hv := hde.variant
    dsimp only
    cases hd : d.variant <;> cases he : e.variant <;> rw [hd, he] at hv <;> try (first | exact .none | (cases hv; done))
    refine .some (h.set i ⟨hde.idx, hde.date, hde.tags, hde.links, hde.metadata, hp, ?_⟩)
    have := hv.2
    simp only [Booked.Transaction.mk.injEq, and_true] at this
    simp only [this.1, this.2.1, this.2.2]

theorem padAt_near {l m : List Booked.Directive} (h : LedgerNear l m) (i : Nat) : padAt l i = padAt m i := by
  unfold padAt
  gen_like hg : (h.at i)
  cases hg with
  | none => rfl
  | @some d e hde =>
    have hv := hde.variant
    obtain ⟨_, _, _, _, _, v⟩ := d
    obtain ⟨_, _, _, _, _, w⟩ := e
    cases v <;> cases w <;> first | rfl | (cases hv; done) | (cases hv; rfl)

theorem padPostings_near (cur : Str) {m m' : Dec} (h : m.val = m'.val) (a b : Str) :
    List.Forall₂ PostingNear (calculateBalancePadPostings cur m a b) (calculateBalancePadPostings cur m' a b) :=
  .cons ⟨h, rfl⟩ (.cons ⟨by simp [h], rfl⟩ .nil)

theorem postings_near {l m : List Booked.Directive} (h : LedgerNear l m) : List.Forall₂ PostingNear (postings l) (postings m) := by
  unfold postings
  induction h with
  | nil => exact .nil
  | @cons d e l m hde _ ih =>
    simp only [List.flatMap_cons]
    refine List.rel_append ?_ ih
    have hv := hde.variant
    unfold postingsOf
    cases hd : d.variant <;> cases he : e.variant <;> rw [hd, he] at hv <;> first | exact .nil | (cases hv; done) | exact hv.1

theorem turnover_near {l m : List Booked.Directive} (h : LedgerNear l m) (c : Str) : turnover l c = turnover m c := by
  unfold turnover
  have := postings_near h
  revert this
  generalize postings l = ps
  generalize postings m = qs
  intro this
  induction this with
  | nil => rfl
  | @cons p q l m hpq _ ih =>
    have hc : p.cur = q.cur := by simpa using congrArg Booked.Posting.cur hpq.2
    simp only [List.filter_cons, hc]
    split
    · simp only [List.map_cons, List.sum_cons, ih, hpq.1]
    · exact ih

/-! ### Balances -/

/-- Results of a balance directive which agree, or which both have a margin. -/
def BalanceNear (a b : Booked.Variant × List Booked.Directive) : Prop :=
  LedgerNear a.2 b.2 ∧ ∃ x y, a.1 = .balance x ∧ b.1 = .balance y ∧ ((x = y ∧ x.margin = none) ∨ (x.margin.isSome ∧ y.margin.isSome))

theorem StateNear.fillPad (hE : PlacesBlind L E) (h : StateNear E s t) (b : Raw.Balance) {x y : Dec} (hxy : x.val = y.val) (i : Nat)
    {l m : List Booked.Directive} (hb : LedgerNear l m) : ResNear E BalanceNear (s.fillPad b x i l) (t.fillPad b y i m) := by
  rw [fillPad_eq, fillPad_eq, padAt_near hb]
  cases padAt m i with
  | none => exact .bad .panic .panic
  | some pad =>
    dsimp only
    gen_like hg : (setPostingsAt_near hb (i + 1) (padPostings_near b.cur hxy b.acc pad.source))
    cases hg with
    | none => exact .bad .panic .panic
    | some hl =>
      dsimp only
      gen_like hg : (h.accounts.get pad.source)
      cases hg with
      | none => exact .bad .panic .panic
      | some ha =>
        refine .ok (h.setAccount _ ⟨ha.allowed, ?_, ha.opened, ha.pad, ha.window, ha.booking⟩) ⟨hl, _, _, rfl, rfl, .inl ⟨rfl, rfl⟩⟩
        exact hE.accumulate _ _ _ _ _ _ ha.positions (by simp [hxy])

theorem StateNear.balanceWith (hE : PlacesBlind L E) (h : StateNear E s t) {x y : Option Dec} (hxy : Option.Rel (fun a b => a.val = b.val) x y)
    (b : Raw.Balance) (e : ElementIdx) {l m : List Booked.Directive} (hb : LedgerNear l m) :
    ResNear E BalanceNear (s.balanceWith x b e l) (t.balanceWith y b e m) := by
  unfold State.balanceWith
  gen_like hg : (h.getValidAccount b.acc e)
  cases hg with
  | err x => exact .bad (.err _ _) (.err _ _)
  | panic => exact .bad .panic .panic
  | @ok a a' ha =>
    dsimp only
    rw [ha.validateCurrency]
    cases a'.validateCurrency b.cur e with
    | some x => exact .bad (.err _ _) (.err _ _)
    | none =>
      dsimp only
      rw [hb.length_eq, ha.pad]
      have hadv : AccountNear E (a.advance m.length) (a'.advance m.length) :=
        ⟨ha.allowed, ha.positions, ha.opened, rfl, by simp only [Account.advance, ha.window], ha.booking⟩
      cases hxy with
      | none => exact .ok (h.setAccount _ hadv) ⟨hb, _, _, rfl, rfl, .inl ⟨rfl, rfl⟩⟩
      | @some u v huv =>
        dsimp only
        have hadj : AccountNear E ((a.advance m.length).adjustAdd b.cur u) ((a'.advance m.length).adjustAdd b.cur v) :=
          ⟨hadv.allowed, hE.accumulate _ _ _ _ _ _ hadv.positions huv, hadv.opened, hadv.pad, hadv.window, hadv.booking⟩
        cases a'.pad with
        | none => exact .ok (h.setAccount _ hadj) ⟨hb, _, _, rfl, rfl, .inr ⟨rfl, rfl⟩⟩
        | some p => exact (h.setAccount _ hadj).fillPad hE b huv p.1 hb

end

theorem balance_with {env : Env L} {st : State L} {b : Raw.Balance} {e : ElementIdx} {bk : List Booked.Directive} :
    st.balance env b e bk = st.balanceWith (st.marginOf env b) b e bk := rfl

/-! ### What is held is at most what was posted -/

theorem sum_ite_nodup (k : Str) (x : ℚ) (hx : 0 ≤ x) : ∀ ks : List Str, ks.Nodup → (ks.map fun a => if k = a then x else 0).sum ≤ x
  | [], _ => by simpa using hx
  | a :: ks, h => by
    have h' := List.nodup_cons.1 h
    rw [List.map_cons, List.sum_cons]
    by_cases ha : k = a
    · subst ha
      have : (ks.map fun a => if k = a then x else 0).sum = 0 := by
        refine List.sum_eq_zero ?_
        intro y hy
        obtain ⟨b, hb, rfl⟩ := List.mem_map.1 hy
        rw [if_neg]
        rintro rfl
        exact h'.1 hb
      rw [this]; simp
    · rw [if_neg ha, zero_add]
      exact sum_ite_nodup k x hx ks h'.2

theorem sum_abs_by_account (c : Str) (ks : List Str) (hk : ks.Nodup) (ps : List Booked.Posting) :
    (ks.map fun k => ((ps.filter fun p => k = p.acc ∧ p.cur = c).map fun p => |p.units.val|).sum).sum ≤
      ((ps.filter fun p => p.cur = c).map fun p => |p.units.val|).sum := by
  induction ps with
  | nil => simp
  | cons p ps ih =>
    by_cases hc : p.cur = c
    · have : (ks.map fun k => (((p :: ps).filter fun p => k = p.acc ∧ p.cur = c).map fun p => |p.units.val|).sum) =
          ks.map fun k => (if p.acc = k then |p.units.val| else 0) +
            ((ps.filter fun p => k = p.acc ∧ p.cur = c).map fun p => |p.units.val|).sum := by
        refine List.map_congr_left fun k _ => ?_
        by_cases hk : k = p.acc
        · simp [hc, hk]
        · have hk' : ¬ p.acc = k := fun e => hk e.symm
          simp [hk, hk']
      rw [this, List.sum_map_add]
      have h1 := sum_ite_nodup p.acc |p.units.val| (abs_nonneg _) ks hk
      simp only [List.filter_cons, hc, decide_true, if_true, List.map_cons, List.sum_cons]
      linarith
    · simpa [List.filter_cons, hc] using ih

theorem held_of_mem {m : AMap Str (Account L)} (c : Str) (hw : AMap.WF m) {k : Str} {a : Account L} (h : (k, a) ∈ m) :
    (m.map fun ka => if decide (k = ka.1) = true then (L.units ka.2.positions c).val else 0).sum = (L.units a.positions c).val := by
  induction m with
  | nil => cases h
  | cons x m ih =>
    unfold AMap.WF AMap.keys at hw
    have hw' := List.nodup_cons.1 hw
    rw [List.map_cons, List.sum_cons]
    rcases List.mem_cons.1 h with rfl | h
    · have : (m.map fun ka => if decide (k = ka.1) = true then (L.units ka.2.positions c).val else 0).sum = 0 := by
        refine List.sum_eq_zero ?_
        intro y hy
        obtain ⟨b, hb, rfl⟩ := List.mem_map.1 hy
        rw [if_neg]
        intro e
        exact hw'.1 (List.mem_map.2 ⟨b, hb, (of_decide_eq_true e).symm⟩)
      rw [this]; simp
    · have hne : k ≠ x.1 := by
        rintro rfl
        exact hw'.1 (List.mem_map.2 ⟨_, h, rfl⟩)
      rw [ih hw'.2 h]
      simp [hne]

theorem abs_sum_le (l : List Booked.Posting) : |(l.map fun p => p.units.val).sum| ≤ (l.map fun p => |p.units.val|).sum := by
  induction l with
  | nil => simp
  | cons p l ih =>
    simp only [List.map_cons, List.sum_cons]
    exact (abs_add_le _ _).trans (by linarith)

theorem holdings_le {st : State L} {bk : List Booked.Directive} (c : Str) (hw : AMap.WF st.accounts)
    (hh : ∀ S : Str → Bool, st.held S c = sumUnits (fun q => S q.acc ∧ q.cur = c) bk) :
    (st.accounts.map fun ka => |(L.units ka.2.positions c).val|).sum ≤ turnover bk c := by
  have key : ∀ ka ∈ st.accounts, |(L.units ka.2.positions c).val| ≤
      (((postings bk).filter fun p => ka.1 = p.acc ∧ p.cur = c).map fun p => |p.units.val|).sum := by
    intro ka hka
    rw [← held_of_mem c hw hka]
    have := hh fun a => decide (ka.1 = a)
    unfold State.held at this
    rw [this]
    unfold sumUnits
    simp only [decide_eq_true_eq]
    exact abs_sum_le _
  have hle : (st.accounts.map fun ka => |(L.units ka.2.positions c).val|).sum ≤
      (st.accounts.map fun ka => (((postings bk).filter fun p => ka.1 = p.acc ∧ p.cur = c).map fun p => |p.units.val|).sum).sum :=
    List.sum_le_sum key
  refine hle.trans ?_
  have := sum_abs_by_account c (AMap.keys st.accounts) hw (postings bk)
  unfold AMap.keys at this
  rw [List.map_map] at this
  exact this

/-! ### Margins -/

/-- What accounts hold has at most `n` decimal places. -/
def HeldPlaces (n : Nat) (st : State L) : Prop := ∀ ka ∈ st.accounts, ∀ c, (L.units ka.2.positions c).s ≤ n

theorem toleranceIn_exact {A : Arith} (hA : A.Lawful) {env env' : Env L} (htol : env.tolerance = env'.tolerance) {n : Nat} (hn : n ≤ 28)
    {b : Raw.Balance} (hb : b.units.s ≤ n) (ht : b.tolerance = none → b.units.s + (env.tolerance.multiplier.getD ⟨5, 1⟩).s ≤ 28 ∧
      2 * (env.tolerance.multiplier.getD ⟨5, 1⟩).m.natAbs < 2 ^ 96) :
    ∃ t, toleranceIn A env b = some t ∧ t.val = (effectiveTolerance env' b).val := by
  unfold toleranceIn effectiveTolerance
  rw [← htol]
  cases hbt : b.tolerance with
  | some t => exact ⟨t, rfl, rfl⟩
  | none =>
    obtain ⟨h1, h2⟩ := ht hbt
    generalize env.tolerance.multiplier.getD (Dec.mk 5 1) = k at h1 h2
    dsimp only
    by_cases hs : b.units.s > 0
    · rw [if_pos hs, if_pos hs]
      have f1 : (Dec.mk 1 b.units.s).fits = true := by
        rw [Dec.fits_iff]
        exact ⟨by norm_num, hb.trans hn⟩
      have f2 : k.fits = true := by
        rw [Dec.fits_iff]
        exact ⟨by omega, by omega⟩
      obtain ⟨r, g1, g2, g3⟩ := hA.mul_exact _ _ f1 f2 (by
        rw [Dec.fits_iff]
        simp only [Dec.mul, one_mul]
        exact ⟨by omega, h1⟩)
      have hr : |r.val| * 10 ^ (b.units.s + k.s) = (k.m.natAbs : ℚ) := by
        rw [g2, ← Dec.val_mul, show b.units.s + k.s = ((Dec.mk 1 b.units.s).mul k).s from rfl, ← Dec.abs_m]
        simp [Dec.mul]
      have hk : (2 * k.m.natAbs : ℚ) < 2 ^ 96 := by exact_mod_cast h2
      have hk0 : (0 : ℚ) ≤ k.m.natAbs := Nat.cast_nonneg _
      have g3' : r.s ≤ b.units.s + k.s := g3
      obtain ⟨r', e1, e2, e3⟩ := hA.mul_exact r Dec.two (Dec.fits_of h1 g3' (by rw [hr]; linarith)) (by decide)
        (Dec.fits_of h1 (by simpa [Dec.mul, Dec.two] using g3') (by
          rw [Dec.val_mul, abs_mul, mul_right_comm, hr]
          have : |Dec.two.val| = 2 := by norm_num [Dec.two, Dec.val]
          rw [this]; linarith))
      refine ⟨r', ?_, ?_⟩
      · rw [g1]; exact e1
      · rw [e2, g2, Dec.val_mul, Dec.val_mul]
    · rw [if_neg hs, if_neg hs]
      exact ⟨_, rfl, rfl⟩

theorem like_units (hE : PlacesBlind L E) {m n : AMap Str (Account L)} (h : AMap.Like (AccountNear E) m n) (f : Str → ℚ → ℚ) (c : Str) :
    (m.map fun ka => f ka.1 (L.units ka.2.positions c).val) = n.map fun ka => f ka.1 (L.units ka.2.positions c).val := by
  induction h with
  | nil => rfl
  | cons hpq _ ih =>
    simp only [List.map_cons, ih, hpq.1, hE.units _ _ hpq.2.positions c]

theorem sum_filter_le {α : Type} (f : α → ℚ) (hf : ∀ x, 0 ≤ f x) (p : α → Bool) (l : List α) : ((l.filter p).map f).sum ≤ (l.map f).sum := by
  induction l with
  | nil => simp
  | cons x l ih =>
    simp only [List.filter_cons, List.map_cons, List.sum_cons]
    split
    · simp only [List.map_cons, List.sum_cons]; linarith
    · linarith [hf x]

theorem totalIn_exact {A : Arith} (hA : A.Lawful) {env : Env L} (hf : env.Fair) {st : State L} {n : Nat} (hn : n ≤ 28)
    (hs : HeldPlaces n st) (base cur : Str) (h : (st.accounts.map fun ka => |(L.units ka.2.positions cur).val|).sum * 10 ^ n < 2 ^ 96) :
    ∃ r, st.totalIn A env base cur = some r ∧ r.val = st.held (fun a => Below base a) cur ∧ r.s ≤ n := by
  unfold State.totalIn
  have hp := hf st.accounts
  have hle : ((((env.order st.accounts).filter fun ca => isNonstrictSubaccount base ca.1).map fun ca => L.units ca.2.positions cur).map
      fun x => |x.val|).sum ≤ (st.accounts.map fun ka => |(L.units ka.2.positions cur).val|).sum := by
    rw [List.map_map]
    refine (sum_filter_le (fun ca : Str × Account L => |(L.units ca.2.positions cur).val|) (fun _ => abs_nonneg _) _ _).trans ?_
    exact le_of_eq (hp.map _).sum_eq
  obtain ⟨r, h1, h2, h3⟩ := sumFrom_small hA hn
    (((env.order st.accounts).filter fun ca => isNonstrictSubaccount base ca.1).map fun ca => L.units ca.2.positions cur)
    Dec.zero (Nat.zero_le _) (by
      intro x hx
      obtain ⟨ka, hka, rfl⟩ := List.mem_map.1 hx
      exact hs ka (hp.mem_iff.1 (List.mem_filter.1 hka).1) cur) (by
      rw [Dec.val_zero, abs_zero, zero_add]
      exact lt_of_le_of_lt (mul_le_mul_of_nonneg_right hle (by positivity)) h)
  refine ⟨r, h1, ?_, h3⟩
  rw [h2, ← State.totalRollupUnits_val hf]
  unfold State.totalRollupUnits
  rw [Dec.val_sum, Dec.val_zero, zero_add]

theorem marginIn_exact {A : Arith} (hA : A.Lawful) (hE : PlacesBlind L E) {env env' : Env L} (hf : env.Fair) (hf' : env'.Fair)
    (htol : env.tolerance = env'.tolerance) {s t : State L} (hst : StateNear E s t) {n : Nat} (hn : n ≤ 28) (hs : HeldPlaces n s)
    {b : Raw.Balance} (hb : b.units.s ≤ n)
    (hsize : ((t.accounts.map fun ka => |(L.units ka.2.positions b.cur).val|).sum + |b.units.val|) * 10 ^ n < 2 ^ 96)
    (ht : b.tolerance = none → b.units.s + (env.tolerance.multiplier.getD ⟨5, 1⟩).s ≤ 28 ∧
      2 * (env.tolerance.multiplier.getD ⟨5, 1⟩).m.natAbs < 2 ^ 96) :
    ∃ m, s.marginIn A env b = some m ∧ Option.Rel (fun x y => x.val = y.val) m (t.marginOf env' b) ∧ ∀ x ∈ m, x.s ≤ n := by
  have hp : (0 : ℚ) < 10 ^ n := by positivity
  have hacc : (s.accounts.map fun ka => |(L.units ka.2.positions b.cur).val|) = t.accounts.map fun ka => |(L.units ka.2.positions b.cur).val| :=
    like_units hE hst.accounts (fun _ x => |x|) b.cur
  have hheld : s.held (fun a => Below b.acc a) b.cur = t.held (fun a => Below b.acc a) b.cur := by
    unfold State.held
    exact congrArg List.sum (like_units hE hst.accounts (fun k x => if decide (Below b.acc k) = true then x else 0) b.cur)
  have h0 : 0 ≤ (t.accounts.map fun ka => |(L.units ka.2.positions b.cur).val|).sum :=
    sum_abs_nonneg (fun ka : Str × Account L => (L.units ka.2.positions b.cur).val) _
  have hb0 := abs_nonneg b.units.val
  obtain ⟨tol, t1, t2⟩ := toleranceIn_exact hA htol hn hb ht
  obtain ⟨tot, u1, u2, u3⟩ := totalIn_exact hA hf hn hs b.acc b.cur (by
    rw [hacc]
    exact lt_of_le_of_lt (mul_le_mul_of_nonneg_right (by linarith) hp.le) hsize)
  have hle : |tot.val| ≤ (t.accounts.map fun ka => |(L.units ka.2.positions b.cur).val|).sum := by
    rw [u2, hheld]
    unfold State.held
    generalize t.accounts = m
    induction m with
    | nil => simp
    | cons x m ih =>
      simp only [List.map_cons, List.sum_cons]
      refine (abs_add_le _ _).trans (add_le_add ?_ ih)
      split
      · exact le_refl _
      · simp
  have small : ∀ v : ℚ, v ≤ (t.accounts.map fun ka => |(L.units ka.2.positions b.cur).val|).sum + |b.units.val| → v * 10 ^ n < 2 ^ 96 :=
    fun v hv => lt_of_le_of_lt (mul_le_mul_of_nonneg_right hv hp.le) hsize
  have hsub : |b.units.val - tot.val| ≤ |b.units.val| + |tot.val| := abs_sub _ _
  obtain ⟨r, r1, r2, r3⟩ := hA.sub_exact b.units tot (Dec.fits_of hn hb (small _ (by linarith))) (Dec.fits_of hn u3 (small _ (by linarith)))
    (Dec.fits_of hn (by simpa [Dec.sub, Dec.add, Dec.neg] using ⟨hb, u3⟩) (small _ (by rw [Dec.val_sub]; linarith)))
  have hgt : r.abs.gt tol = ((b.units.sub (t.totalRollupUnits env' b.acc b.cur)).abs).gt (effectiveTolerance env' b) := by
    rw [Bool.eq_iff_iff, Dec.gt_iff, Dec.gt_iff, Dec.val_abs, Dec.val_abs, Dec.val_sub, State.totalRollupUnits_val hf', r2, u2, hheld, t2]
  refine ⟨if r.abs.gt tol then some r else none, ?_, ?_, ?_⟩
  · unfold State.marginIn
    rw [t1, u1]
    dsimp only
    rw [r1]
  · unfold State.marginOf calculateBalanceMargin
    rw [hgt]
    dsimp only
    split
    · refine .some ?_
      rw [Dec.val_sub, State.totalRollupUnits_val hf', r2, u2, hheld]
    · exact .none
  · intro x hx
    split at hx
    · cases hx
      exact r3.trans (max_le hb u3)
    · cases hx

end Limabean
