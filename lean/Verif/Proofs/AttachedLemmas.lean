/-
Booking directives which agree but for attached data.
-/
import Verif.Pod.Accumulator
import Verif.Spec.Attached

namespace Limabean

open Spec

variable {L : BookLib} {R : Attached}

theorem gen_rel {α β : Type} {S : α → β → Prop} {a : α} {b : β} (h : S a b) : ∃ x y, a = x ∧ b = y ∧ S x y := ⟨a, b, rfl, rfl, h⟩

/-- Replace two related terms of the goal by variables. -/
macro "gen_like" n:ident " : " h:term : tactic =>
  `(tactic| (obtain ⟨x, y, hx, hy, $n⟩ := gen_rel $h; rw [hx, hy]; clear hx hy))

/-- Maps with the same keys in the same order, and related values. -/
def AMap.Like {V W : Type} (S : V → W → Prop) (m : AMap Str V) (n : AMap Str W) : Prop :=
  List.Forall₂ (fun p q => p.1 = q.1 ∧ S p.2 q.2) m n

theorem AMap.Like.get {V W : Type} {S : V → W → Prop} {m : AMap Str V} {n : AMap Str W} (h : AMap.Like S m n) (k : Str) :
    Option.Rel S (m.get k) (n.get k) := by
  induction h with
  | nil => exact .none
  | @cons p q m n hpq _ ih =>
    obtain ⟨a, b⟩ := p
    obtain ⟨c, d⟩ := q
    obtain ⟨rfl, h2⟩ := hpq
    simp only [AMap.get]
    split
    · exact .some h2
    · exact ih

theorem AMap.Like.set {V W : Type} {S : V → W → Prop} {m : AMap Str V} {n : AMap Str W} (h : AMap.Like S m n) (k : Str) {v : V} {w : W}
    (hvw : S v w) : AMap.Like S (m.set k v) (n.set k w) := by
  induction h with
  | nil => exact .cons ⟨rfl, hvw⟩ .nil
  | @cons p q m n hpq hr ih =>
    obtain ⟨a, b⟩ := p
    obtain ⟨c, d⟩ := q
    obtain ⟨rfl, h2⟩ := hpq
    simp only [AMap.set]
    split
    · exact .cons ⟨rfl, hvw⟩ hr
    · exact .cons ⟨rfl, h2⟩ ih

/-- Accounts which agree but for the order of the allowed currencies. -/
structure AccountLike (a b : Account L) : Prop where
  allowed : a.allowed.Perm b.allowed
  rest : { a with allowed := [] } = { b with allowed := [] }

theorem AccountLike.fields {a b : Account L} (h : AccountLike a b) :
    a.positions = b.positions ∧ a.opened = b.opened ∧ a.pad = b.pad ∧ a.window = b.window ∧ a.booking = b.booking := by
  obtain ⟨_, _, _, _, _, _⟩ := a
  obtain ⟨_, _, _, _, _, _⟩ := b
  have := h.rest
  simp only [Account.mk.injEq, true_and] at this
  exact this

theorem AccountLike.of {a b : Account L} (h : a.allowed.Perm b.allowed) (h1 : a.positions = b.positions) (h2 : a.opened = b.opened)
    (h3 : a.pad = b.pad) (h4 : a.window = b.window) (h5 : a.booking = b.booking) : AccountLike a b := by
  refine ⟨h, ?_⟩
  rw [h1, h2, h3, h4, h5]

theorem AccountLike.validateCurrency {a b : Account L} (h : AccountLike a b) (cur : Str) (e : ElementIdx) :
    a.validateCurrency cur e = b.validateCurrency cur e := by
  have h1 : a.isCurrencyValid cur = b.isCurrencyValid cur := by
    have h2 : a.allowed.isEmpty = b.allowed.isEmpty := by
      rw [Bool.eq_iff_iff, List.isEmpty_iff, List.isEmpty_iff]
      exact ⟨fun e => (List.nil_perm.1 (e ▸ h.allowed)), fun e => (List.perm_nil.1 (e ▸ h.allowed))⟩
    have h3 : a.allowed.contains cur = b.allowed.contains cur := by
      rw [Bool.eq_iff_iff, List.contains_iff_mem, List.contains_iff_mem]
      exact h.allowed.mem_iff
    unfold Account.isCurrencyValid
    rw [h2, h3]
  unfold Account.validateCurrency
  rw [h1, h.fields.2.1]

/-- States which agree but for the order of allowed currencies. -/
structure StateLike (s t : State L) : Prop where
  opened : s.opened = t.opened
  closed : s.closed = t.closed
  warnings : s.warnings = t.warnings
  accounts : AMap.Like AccountLike s.accounts t.accounts

/-- Lookups which agree. -/
inductive GotLike {α β : Type} (S : α → β → Prop) : Got α → Got β → Prop
  | ok {a b} : S a b → GotLike S (.ok a) (.ok b)
  | err e : GotLike S (.err e) (.err e)
  | panic : GotLike S .panic .panic

/-- Results of steps which agree. -/
inductive ResLike {α β : Type} (S : α → β → Prop) : Res (State L) α → Res (State L) β → Prop
  | ok {s t a b} : StateLike s t → S a b → ResLike S (.ok s a) (.ok t b)
  | err {s t} e : StateLike s t → ResLike S (.err s e) (.err t e)
  | panic : ResLike S .panic .panic

section
variable {s t : State L}

theorem StateLike.validateAccount (h : StateLike s t) (acc : Str) (e : ElementIdx) : s.validateAccount acc e = t.validateAccount acc e := by
  unfold State.validateAccount
  rw [h.opened, h.closed]

theorem StateLike.getValidAccount (h : StateLike s t) (acc : Str) (e : ElementIdx) :
    GotLike AccountLike (s.getValidAccount acc e) (t.getValidAccount acc e) := by
  unfold State.getValidAccount
  rw [h.validateAccount]
  cases t.validateAccount acc e with
  | some r => exact .err r
  | none =>
    dsimp only
    gen_like hg : (h.accounts.get acc)
    cases hg with
    | none => exact .panic
    | some h => exact .ok h

theorem StateLike.setAccount (h : StateLike s t) (acc : Str) {a b : Account L} (hab : AccountLike a b) :
    StateLike (s.setAccount acc a) (t.setAccount acc b) :=
  ⟨h.opened, h.closed, h.warnings, h.accounts.set acc hab⟩

theorem StateLike.validateAccountAndCurrency (h : StateLike s t) (acc cur : Str) (e : ElementIdx) :
    s.validateAccountAndCurrency acc cur e = t.validateAccountAndCurrency acc cur e := by
  unfold State.validateAccountAndCurrency
  gen_like hg : (h.getValidAccount acc e)
  cases hg with
  | ok h => dsimp only; rw [h.validateCurrency]
  | err e => rfl
  | panic => rfl

theorem StateLike.totalRollupUnits (h : StateLike s t) (d : Booking) (tol : Tolerance) (base cur : Str) :
    s.totalRollupUnits ⟨d, tol, id⟩ base cur = t.totalRollupUnits ⟨d, tol, id⟩ base cur := by
  unfold State.totalRollupUnits
  simp only [id]
  congr 1
  have := h.accounts
  revert this
  generalize s.accounts = m
  generalize t.accounts = n
  intro hl
  induction hl with
  | nil => rfl
  | @cons p q m n hpq _ ih =>
    obtain ⟨a, b⟩ := p
    obtain ⟨c, d⟩ := q
    obtain ⟨rfl, h2⟩ := hpq
    change AccountLike b d at h2
    simp only [List.filter_cons]
    split
    · simp only [List.map_cons, h2.fields.1, ih]
    · exact ih

theorem StateLike.firstPostingError (h : StateLike s t) (e : ElementIdx) {l : List Interpolated} {ps qs : List Raw.PostingSpec}
    (hp : List.Forall₂ (PostingLike R) ps qs) (i : Nat) :
    s.firstPostingError e i (l.zip ps) = t.firstPostingError e i (l.zip qs) := by
  induction l generalizing ps qs i with
  | nil => rfl
  | cons ip l ih =>
    cases hp with
    | nil => rfl
    | @cons p q ps qs hpq hp =>
      simp only [List.zip_cons_cons, State.firstPostingError]
      have ha : p.acc = q.acc := by simpa using congrArg Raw.PostingSpec.acc hpq.rest
      rw [ha, h.validateAccountAndCurrency, ih hp]

theorem bookedPostings_like {l : List Interpolated} {ps qs : List Raw.PostingSpec} (hp : List.Forall₂ (PostingLike R) ps qs) (i : Nat) :
    List.Forall₂ (BookedPostingLike R) (bookedPostings i (l.zip ps)) (bookedPostings i (l.zip qs)) := by
  induction l generalizing ps qs i with
  | nil => exact .nil
  | cons ip l ih =>
    cases hp with
    | nil => exact .nil
    | @cons p q ps qs hpq hp =>
      simp only [List.zip_cons_cons, bookedPostings]
      refine List.rel_append ?_ (ih hp (i + 1))
      have ha : p.acc = q.acc := by simpa using congrArg Raw.PostingSpec.acc hpq.rest
      have hfl : p.flag = q.flag := by simpa using congrArg Raw.PostingSpec.flag hpq.rest
      unfold bookedPostingsOf
      cases ip.cost with
      | some lots =>
        simp only [List.forall₂_map_left_iff, List.forall₂_map_right_iff]
        refine List.forall₂_same.2 fun x _ => ⟨.inl ⟨hpq.tags, hpq.links, hpq.metadata⟩, ?_⟩
        simp only [ha, hfl]
      | none =>
        refine .cons ⟨.inl ⟨hpq.tags, hpq.links, hpq.metadata⟩, ?_⟩ .nil
        simp only [ha, hfl]

theorem StateLike.installInventory (h : StateLike s t) (e : ElementIdx) (l : List (Str × L.Pos)) :
    ResLike (fun _ _ => True) (State.installInventory e s l) (State.installInventory e t l) := by
  induction l generalizing s t with
  | nil => exact .ok h trivial
  | cons x l ih =>
    obtain ⟨acc, pos⟩ := x
    simp only [State.installInventory]
    gen_like hg : (h.getValidAccount acc e)
    cases hg with
    | ok hab =>
      refine ih (h.setAccount acc ?_)
      have := hab.fields
      exact AccountLike.of hab.allowed rfl this.2.1 this.2.2.1 this.2.2.2.1 this.2.2.2.2
    | err r => exact .err r h
    | panic => exact .panic

theorem StateLike.inventory (h : StateLike s t) : s.inventory = t.inventory := by
  funext acc
  unfold State.inventory
  gen_like hg : (h.accounts.get acc)
  cases hg with
  | none => rfl
  | some h => exact congrArg some h.fields.1

theorem StateLike.bookingFor (h : StateLike s t) (env : Env L) : s.bookingFor env = t.bookingFor env := by
  funext acc
  unfold State.bookingFor
  gen_like hg : (h.accounts.get acc)
  cases hg with
  | none => rfl
  | some h => exact h.fields.2.2.2.2

theorem seen_like {ps qs : List Raw.PostingSpec} (hp : List.Forall₂ (PostingLike R) ps qs) : ps.map seenByLibrary = qs.map seenByLibrary := by
  induction hp with
  | nil => rfl
  | cons h _ ih =>
    simp only [List.map_cons, ih]
    have hr := h.rest
    congr 1
    unfold seenByLibrary
    simp only [Raw.PostingSpec.mk.injEq] at hr
    obtain ⟨-, -, h1, h2, h3, h4, h5, -⟩ := hr
    rw [h1, h2, h3, h4, h5]

theorem StateLike.book (hL : Blind L) (h : StateLike s t) (env : Env L) (date : Date) {ps qs : List Raw.PostingSpec}
    (hp : List.Forall₂ (PostingLike R) ps qs) (e : ElementIdx) :
    ResLike (List.Forall₂ (BookedPostingLike R)) (s.book env date ps e) (t.book env date qs e) := by
  unfold State.book
  rw [h.inventory, h.bookingFor, hL date ps qs _ _ _ (seen_like hp)]
  cases L.book date qs env.tolerance t.inventory (t.bookingFor env) with
  | error x => cases x <;> exact .err _ h
  | ok r =>
    dsimp only
    rw [h.firstPostingError e hp]
    cases t.firstPostingError e 0 (r.interpolated.zip qs) with
    | err x => exact .err _ h
    | panic => exact .panic
    | ok u =>
      dsimp only
      gen_like hg : (h.installInventory e r.updated)
      cases hg with
      | ok h _ => exact .ok h (bookedPostings_like hp 0)
      | err x h => exact .err _ h
      | panic => exact .panic

theorem StateLike.transaction (hL : Blind L) (h : StateLike s t) (env : Env L) (date : Date) {a b : Raw.Transaction}
    (hab : VariantLike R (.transaction a) (.transaction b)) (e : ElementIdx) :
    ResLike (BookedVariantLike R) (s.transaction env a date e) (t.transaction env b date e) := by
  obtain ⟨hp, hr⟩ := hab
  unfold State.transaction
  gen_like hg : (h.book hL env date hp e)
  cases hg with
  | ok h hb =>
    refine .ok h ⟨hb, ?_⟩
    simp only [Raw.Transaction.mk.injEq, and_true] at hr
    obtain ⟨h1, h2, h3⟩ := hr
    simp only [h1, h2, h3]
  | err x h => exact .err _ h
  | panic => exact .panic

theorem StateLike.opn (h : StateLike s t) (env : Env L) {a b : Raw.Open} (hab : VariantLike R (.opn a) (.opn b)) (e : ElementIdx) :
    ResLike (BookedVariantLike R) (s.opn env a e) (t.opn env b e) := by
  obtain ⟨acc, cs, bk⟩ := a
  obtain ⟨acc', cs', bk'⟩ := b
  obtain ⟨hp, hr⟩ := hab
  simp only [Raw.Open.mk.injEq, true_and] at hr
  obtain ⟨rfl, rfl⟩ := hr
  unfold State.opn
  dsimp only
  rw [h.opened, h.closed, h.warnings]
  cases t.opened.get acc with
  | some p => exact .err _ h
  | none =>
    dsimp only
    cases t.closed.get acc with
    | some p => exact .err _ ⟨rfl, rfl, rfl, h.accounts⟩
    | none =>
      dsimp only
      refine .ok ⟨rfl, rfl, rfl, h.accounts.set acc (AccountLike.of ?_ rfl rfl rfl rfl rfl)⟩ ⟨hp, rfl⟩
      simp only [Account.new]
      revert hp
      cases cs <;> cases cs' <;> simp [SameSet]

theorem StateLike.close (h : StateLike s t) (c : Raw.Close) (e : ElementIdx) :
    ResLike (BookedVariantLike R) (s.close c e) (t.close c e) := by
  unfold State.close
  rw [h.opened, h.closed]
  cases t.opened.get c.acc with
  | none => exact .err _ h
  | some p =>
    dsimp only
    cases t.closed.get c.acc with
    | some p => exact .err _ h
    | none => exact .ok ⟨rfl, rfl, h.warnings, h.accounts⟩ rfl

theorem StateLike.pad (h : StateLike s t) (p : Raw.Pad) (i : Nat) (e : ElementIdx) :
    ResLike (fun a b => a = b ∧ a = (.pad p, .transaction { flag := padFlag, postings := [] })) (s.pad p i e) (t.pad p i e) := by
  unfold State.pad
  gen_like hg : (h.getValidAccount p.acc e)
  cases hg with
  | err x => exact .err _ h
  | panic => exact .panic
  | @ok a b hab =>
    have hf := hab.fields
    dsimp only
    rw [hf.2.2.1]
    cases b.pad with
    | some x => exact .err _ (h.setAccount _ (AccountLike.of hab.allowed hf.1 hf.2.1 rfl hf.2.2.2.1 hf.2.2.2.2))
    | none => exact .ok (h.setAccount _ (AccountLike.of hab.allowed hf.1 hf.2.1 rfl hf.2.2.2.1 hf.2.2.2.2)) ⟨rfl, rfl⟩

/-! ### Booked directives -/

theorem BookedVariantLike.pad {v w : Booked.Variant} (h : BookedVariantLike R v w) (p : Raw.Pad) : v = .pad p ↔ w = .pad p := by
  cases v <;> cases w <;> simp_all [BookedVariantLike]

theorem BookedVariantLike.balance {v w : Booked.Variant} (h : BookedVariantLike R v w) (p : Booked.Balance) :
    v = .balance p ↔ w = .balance p := by
  cases v <;> cases w <;> simp_all [BookedVariantLike]

theorem Like.at {l m : List Booked.Directive} (h : List.Forall₂ (BookedLike R) l m) (i : Nat) : Option.Rel (BookedLike R) l[i]? m[i]? := by
  induction h generalizing i with
  | nil => exact .none
  | cons h _ ih =>
    cases i with
    | zero => exact .some h
    | succ i => simpa using ih i

theorem Like.set {l m : List Booked.Directive} (h : List.Forall₂ (BookedLike R) l m) (i : Nat) {d e : Booked.Directive}
    (hde : BookedLike R d e) : List.Forall₂ (BookedLike R) (l.set i d) (m.set i e) := by
  induction h generalizing i with
  | nil => exact .nil
  | cons h hr ih =>
    cases i with
    | zero => exact .cons hde hr
    | succ i => exact .cons h (ih i)

theorem setPostingsAt_like {l m : List Booked.Directive} (h : List.Forall₂ (BookedLike R) l m) (i : Nat) {ps qs : List Booked.Posting}
    (hp : List.Forall₂ (BookedPostingLike R) ps qs) :
    Option.Rel (List.Forall₂ (BookedLike R)) (setPostingsAt l i ps) (setPostingsAt m i qs) := by
  unfold setPostingsAt
  gen_like hg : (Like.at h i)
  cases hg with
  | none => exact .none
  | @some d e hde =>
    have hv := hde.variant
    dsimp only
    cases hd : d.variant <;> cases he : e.variant <;> rw [hd, he] at hv <;> try (first | exact .none | (cases hv; done))
    refine .some (Like.set h i ⟨hde.idx, hde.date, hde.tags, hde.links, hde.metadata, hp, ?_⟩)
    have := hv.2
    simp only [Booked.Transaction.mk.injEq, and_true] at this
    simp only [this.1, this.2.1, this.2.2]

theorem padPostings_like (cur : Str) (margin : Dec) (a b : Str) :
    List.Forall₂ (BookedPostingLike R) (calculateBalancePadPostings cur margin a b) (calculateBalancePadPostings cur margin a b) :=
  .cons ⟨.inr ⟨rfl, rfl⟩, rfl⟩ (.cons ⟨.inr ⟨rfl, rfl⟩, rfl⟩ .nil)

/-- The pad directive at a position. -/
def padAt (l : List Booked.Directive) (i : Nat) : Option Raw.Pad := match l[i]? with
  | some ⟨_, _, _, _, _, .pad pad⟩ => some pad
  | _ => none

theorem padAt_like {l m : List Booked.Directive} (h : List.Forall₂ (BookedLike R) l m) (i : Nat) : padAt l i = padAt m i := by
  unfold padAt
  gen_like hg : (Like.at h i)
  cases hg with
  | none => rfl
  | @some d e hde =>
    have hv := hde.variant
    obtain ⟨_, _, _, _, _, v⟩ := d
    obtain ⟨_, _, _, _, _, w⟩ := e
    cases v <;> cases w <;> first | rfl | (cases hv; done) | (cases hv; rfl)

theorem fillPad_eq (st : State L) (b : Raw.Balance) (margin : Dec) (i : Nat) (booked : List Booked.Directive) :
    st.fillPad b margin i booked = match padAt booked i with
      | some pad => match setPostingsAt booked (i + 1) (calculateBalancePadPostings b.cur margin b.acc pad.source) with
        | none => .panic
        | some booked' => match st.accounts.get pad.source with
          | none => .panic
          | some src => .ok (st.setAccount pad.source (src.adjustSubtract b.cur margin)) (.balance { raw := b }, booked')
      | none => .panic := by
  unfold State.fillPad padAt
  cases booked[i]? with
  | none => rfl
  | some d =>
    obtain ⟨_, _, _, _, _, v⟩ := d
    cases v <;> rfl

/-- Results of a balance directive which agree. -/
def BalanceLike (R : Attached) (a b : Booked.Variant × List Booked.Directive) : Prop :=
  a.1 = b.1 ∧ (∃ x, a.1 = .balance x) ∧ List.Forall₂ (BookedLike R) a.2 b.2

theorem StateLike.fillPad (h : StateLike s t) (b : Raw.Balance) (margin : Dec) (i : Nat) {l m : List Booked.Directive}
    (hb : List.Forall₂ (BookedLike R) l m) : ResLike (BalanceLike R) (s.fillPad b margin i l) (t.fillPad b margin i m) := by
  rw [fillPad_eq, fillPad_eq, padAt_like hb]
  cases padAt m i with
  | none => exact .panic
  | some pad =>
    dsimp only
    gen_like hg : (setPostingsAt_like hb (i + 1) (padPostings_like b.cur margin b.acc pad.source))
    cases hg with
    | none => exact .panic
    | some hl =>
      dsimp only
      gen_like hg : (h.accounts.get pad.source)
      cases hg with
      | none => exact .panic
      | some ha =>
        have hf := ha.fields
        refine .ok (h.setAccount _ (AccountLike.of ha.allowed ?_ hf.2.1 hf.2.2.1 hf.2.2.2.1 hf.2.2.2.2)) ⟨rfl, ⟨_, rfl⟩, hl⟩
        simp only [Account.adjustSubtract, hf.1]

theorem StateLike.balance (h : StateLike s t) (d : Booking) (tol : Tolerance) (b : Raw.Balance) (e : ElementIdx) {l m : List Booked.Directive}
    (hb : List.Forall₂ (BookedLike R) l m) :
    ResLike (BalanceLike R) (s.balance ⟨d, tol, id⟩ b e l) (t.balance ⟨d, tol, id⟩ b e m) := by
  unfold State.balance
  rw [h.totalRollupUnits]
  dsimp only
  generalize calculateBalanceMargin b.units _ _ = margin
  gen_like hg : (h.getValidAccount b.acc e)
  cases hg with
  | err x => exact .err _ h
  | panic => exact .panic
  | @ok a a' ha =>
    have hf := ha.fields
    dsimp only
    rw [ha.validateCurrency]
    cases a'.validateCurrency b.cur e with
    | some x => exact .err _ h
    | none =>
      dsimp only
      rw [hb.length_eq, hf.2.2.1]
      have hadv : AccountLike (a.advance m.length) (a'.advance m.length) := by
        refine AccountLike.of ha.allowed hf.1 hf.2.1 rfl ?_ hf.2.2.2.2
        simp only [Account.advance, hf.2.2.2.1]
      have hadj : ∀ x, AccountLike ((a.advance m.length).adjustAdd b.cur x) ((a'.advance m.length).adjustAdd b.cur x) := by
        intro x
        have hg := hadv.fields
        refine AccountLike.of hadv.allowed ?_ hg.2.1 hg.2.2.1 hg.2.2.2.1 hg.2.2.2.2
        simp only [Account.adjustAdd, hg.1]
      cases margin with
      | none => exact .ok (h.setAccount _ hadv) ⟨rfl, ⟨_, rfl⟩, hb⟩
      | some x =>
        dsimp only
        cases a'.pad with
        | none => exact .ok (h.setAccount _ (hadj x)) ⟨rfl, ⟨_, rfl⟩, hb⟩
        | some p => exact (h.setAccount _ (hadj x)).fillPad b x p.1 hb

theorem diagnosePostings_like (base : Str) (date : Date) (desc : Option Str) {l m : List Booked.Posting}
    (h : List.Forall₂ (BookedPostingLike R) l m) (total : Dec) : diagnosePostings base date desc total l = diagnosePostings base date desc total m := by
  induction h generalizing total with
  | nil => rfl
  | @cons p q l m hpq _ ih =>
    have ha : p.acc = q.acc := by simpa using congrArg Booked.Posting.acc hpq.rest
    have hu : p.units = q.units := by simpa using congrArg Booked.Posting.units hpq.rest
    simp only [diagnosePostings, ha, hu, ih]

theorem diagnose_like (base : Str) {l m : List Booked.Directive} (h : List.Forall₂ (BookedLike R) l m) (total : Dec) :
    diagnose base total l = diagnose base total m := by
  induction h generalizing total with
  | nil => rfl
  | @cons d e l m hde _ ih =>
    have hv := hde.variant
    unfold diagnose
    cases hd : d.variant <;> cases he : e.variant <;> rw [hd, he] at hv <;>
      first | exact ih total | (cases hv; done) | skip
    have := hv.2
    simp only [Booked.Transaction.mk.injEq, and_true] at this
    simp only [this.2.1, this.2.2, hde.date, diagnosePostings_like base _ _ hv.1, ih]

/-- The balance directive at a position. -/
def balanceAt (l : List Booked.Directive) (i : Nat) : Option Booked.Balance := match l[i]? with
  | some ⟨_, _, _, _, _, .balance b⟩ => some b
  | _ => none

theorem balanceAt_like {l m : List Booked.Directive} (h : List.Forall₂ (BookedLike R) l m) (i : Nat) : balanceAt l i = balanceAt m i := by
  unfold balanceAt
  gen_like hg : (Like.at h i)
  cases hg with
  | none => rfl
  | @some d e hde =>
    have hv := hde.variant
    obtain ⟨_, _, _, _, _, v⟩ := d
    obtain ⟨_, _, _, _, _, w⟩ := e
    cases v <;> cases w <;> first | rfl | (cases hv; done) | (cases hv; rfl)

theorem reportBase_eq (cur : Str) (w : Window) (l : List Booked.Directive) :
    reportBase cur w l = match balanceAt l w.start with
      | some bal => if bal.raw.cur = cur then bal.raw.units else Dec.zero
      | none => Dec.zero := by
  unfold reportBase balanceAt
  cases l[w.start]? with
  | none => rfl
  | some d =>
    obtain ⟨_, _, _, _, _, v⟩ := d
    cases v <;> rfl

theorem StateLike.balanceReport (h : StateLike s t) (base : Str) (margin : Dec) (cur : Str) (e : ElementIdx) {l m : List Booked.Directive}
    (hb : List.Forall₂ (BookedLike R) l m) : s.balanceReport base margin cur e l = t.balanceReport base margin cur e m := by
  unfold State.balanceReport
  gen_like hg : (h.accounts.get base)
  cases hg with
  | none => rfl
  | @some a b hab =>
    dsimp only
    rw [hab.fields.2.2.2.1]
    cases b.window with
    | none => rfl
    | some w =>
      dsimp only
      rw [hb.length_eq, reportBase_eq, reportBase_eq, balanceAt_like hb,
        diagnose_like base (List.forall₂_drop w.start (List.forall₂_take w.stop hb))]

theorem balanceErrors_like (h : StateLike s t) (e : ElementIdx) {l m : List Booked.Directive} (hb : List.Forall₂ (BookedLike R) l m)
    {v w : Booked.Variant} (hv : BookedVariantLike R v w) : balanceErrors s e l v = balanceErrors t e m w := by
  unfold balanceErrors
  cases v <;> cases w <;> first | rfl | (cases hv; done) | skip
  cases hv
  simp only [h.balanceReport _ _ _ _ hb]

/-- What a directive yields, when attached data differ. -/
def SteppedLike (R : Attached) (a b : Stepped) : Prop :=
  BookedVariantLike R a.1 b.1 ∧ Option.Rel (BookedVariantLike R) a.2.1 b.2.1 ∧ List.Forall₂ (BookedLike R) a.2.2 b.2.2

theorem ResLike.plain {l m : List Booked.Directive} (hb : List.Forall₂ (BookedLike R) l m) {x y : Res (State L) Booked.Variant}
    (h : ResLike (BookedVariantLike R) x y) : ResLike (SteppedLike R) (x.plain l) (y.plain m) := by
  cases h with
  | ok h hv => exact .ok h ⟨hv, .none, hb⟩
  | err x h => exact .err _ h
  | panic => exact .panic

theorem bookedVariantLike_refl {v : Booked.Variant} (h : ∀ t, v = .transaction t → t.postings = []) : BookedVariantLike R v v := by
  cases v with
  | transaction t => rw [show BookedVariantLike R (.transaction t) (.transaction t) = (_ ∧ _) from rfl, h t rfl]; exact ⟨.nil, rfl⟩
  | opn o => exact ⟨by cases o.currencies <;> simp [SameSet], rfl⟩
  | _ => rfl

theorem StateLike.directive (hL : Blind L) (h : StateLike s t) (b : Booking) (tol : Tolerance) {d e : Raw.Directive}
    (hd : DirectiveLike R d e) (x : ElementIdx) {l m : List Booked.Directive} (hb : List.Forall₂ (BookedLike R) l m) :
    ResLike (SteppedLike R) (s.directive ⟨b, tol, id⟩ d x l) (t.directive ⟨b, tol, id⟩ e x m) := by
  have hv := hd.variant
  unfold State.directive
  cases hdv : d.variant <;> cases hev : e.variant <;> rw [hdv, hev] at hv <;> try (cases hv; done)
  case transaction.transaction a a' =>
    rw [hd.date]
    exact (h.transaction hL _ _ hv x).plain hb
  case opn.opn a a' => exact (h.opn _ hv x).plain hb
  case balance.balance a a' =>
    cases hv
    dsimp only
    gen_like hg : (h.balance b tol a x hb)
    cases hg with
    | ok h' hr =>
      obtain ⟨h1, ⟨y, h2⟩, h3⟩ := hr
      refine .ok h' ⟨?_, .none, h3⟩
      rw [← h1, h2]
      rfl
    | err y h' => exact .err _ h'
    | panic => exact .panic
  case close.close a a' => cases hv; exact (h.close a x).plain hb
  case pad.pad a a' =>
    cases hv
    dsimp only
    rw [hb.length_eq]
    gen_like hg : (h.pad a m.length x)
    cases hg with
    | ok h' hr =>
      obtain ⟨rfl, rfl⟩ := hr
      exact .ok h' ⟨rfl, .some ⟨.nil, rfl⟩, hb⟩
    | err y h' => exact .err _ h'
    | panic => exact .panic
  all_goals (cases hv; exact .ok h ⟨rfl, .none, hb⟩)

/-- Runs which agree but for attached data. -/
structure RunLike (R : Attached) (r r' : Run L) : Prop where
  st : StateLike r.st r'.st
  booked : List.Forall₂ (BookedLike R) r.booked r'.booked
  errors : r.errors = r'.errors

theorem mkBooked_like {d e : Raw.Directive} (hd : DirectiveLike R d e) (i : Nat) {v w : Booked.Variant} (hv : BookedVariantLike R v w) :
    BookedLike R (mkBooked i d v) (mkBooked i e w) := ⟨rfl, hd.date, hd.tags, hd.links, hd.metadata, hv⟩

theorem RunLike.step (hL : Blind L) {r r' : Run L} (h : RunLike R r r') (b : Booking) (tol : Tolerance) (i : Nat) {d e : Raw.Directive}
    (hd : DirectiveLike R d e) : Option.Rel (RunLike R) (r.step ⟨b, tol, id⟩ i d) (r'.step ⟨b, tol, id⟩ i e) := by
  unfold Run.step
  dsimp only
  gen_like hg : (h.st.directive hL b tol hd { directive := i } h.booked)
  cases hg with
  | @ok s t x y h' hx =>
    obtain ⟨v, v2, l⟩ := x
    obtain ⟨w, w2, m⟩ := y
    obtain ⟨h1, h2, h3⟩ := hx
    dsimp only at h1 h2 h3 ⊢
    rw [balanceErrors_like h' _ h3 h1]
    cases balanceErrors t { directive := i } m w with
    | none => exact .none
    | some es =>
      refine .some ⟨h', List.rel_append (List.rel_append h3 (.cons (mkBooked_like hd i h1) .nil)) ?_, by simp only [h.errors]⟩
      cases h2 with
      | none => exact .nil
      | some h2 => exact .cons (mkBooked_like hd i h2) .nil
  | err x h' => exact .some ⟨h', h.booked, by simp only [h.errors]⟩
  | panic => exact .none

theorem RunLike.loop (hL : Blind L) {r r' : Run L} (h : RunLike R r r') (b : Booking) (tol : Tolerance) (i : Nat)
    {ds es : List Raw.Directive} (hd : List.Forall₂ (DirectiveLike R) ds es) :
    Option.Rel (RunLike R) (Run.loop ⟨b, tol, id⟩ i ds r) (Run.loop ⟨b, tol, id⟩ i es r') := by
  induction hd generalizing r r' i with
  | nil => exact .some h
  | cons h1 _ ih =>
    unfold Run.loop
    gen_like hg : (h.step hL b tol i h1)
    cases hg with
    | none => exact .none
    | some h' => exact ih h' (i + 1)

end

/-- Outcomes which agree but for attached data. -/
inductive OutcomeLike (R : Attached) : Outcome → Outcome → Prop
  | success {out out' w} : List.Forall₂ (BookedLike R) out out' → OutcomeLike R (.success out w) (.success out' w)
  | failure es : OutcomeLike R (.failure es) (.failure es)
  | panic : OutcomeLike R .panic .panic

theorem leftOverPads_like {s t : State L} (h : StateLike s t) (b : Booking) (tol : Tolerance) :
    s.leftOverPads ⟨b, tol, id⟩ = t.leftOverPads ⟨b, tol, id⟩ := by
  unfold State.leftOverPads
  simp only [id]
  have := h.accounts
  revert this
  generalize s.accounts = m
  generalize t.accounts = n
  intro hl
  induction hl with
  | nil => rfl
  | @cons p q m n hpq _ ih =>
    have h2 : AccountLike p.2 q.2 := hpq.2
    simp only [List.filterMap_cons, h2.fields.2.2.1, ih]

theorem book_like (hL : Blind L) (o : BookOptions) {ds es : List Raw.Directive} (hd : List.Forall₂ (DirectiveLike R) ds es) :
    OutcomeLike R (book L id o ds) (book L id o es) := by
  unfold book collect envOf
  gen_like hg : (RunLike.loop hL (R := R) (r := {}) (r' := {}) ⟨⟨rfl, rfl, rfl, .nil⟩, .nil, rfl⟩ (defaultBooking L o) o.tolerance 0 hd)
  cases hg with
  | none => exact .panic
  | some h =>
    simp only [Run.validate, h.errors, leftOverPads_like h.st]
    split
    · rw [h.st.warnings]; exact .success h.booked
    · exact .failure _

end Limabean
