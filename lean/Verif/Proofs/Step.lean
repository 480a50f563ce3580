/-
Inversion lemmas and induction principles for the accumulator model.
-/
import Verif.Pod.Accumulator

namespace Limabean

variable {L : BookLib}

/-! ### The loop -/

theorem Run.loop_append (env : Env L) (n : Nat) (ds ds' : List Raw.Directive) (r : Run L) :
    Run.loop env n (ds ++ ds') r = (Run.loop env n ds r).bind (Run.loop env (n + ds.length) ds') := by
  induction ds generalizing n r with
  | nil => simp [Run.loop]
  | cons d ds ih =>
    simp only [List.cons_append, Run.loop, List.length_cons]
    cases r.step env n d with
    | none => rfl
    | some r' =>
      simp only [ih]
      congr 2
      omega

/-- Induction over the loop, along prefixes of the input. -/
theorem Run.loop_induction (env : Env L) (P : List Raw.Directive → Run L → Prop) (h0 : P [] {})
    (hs : ∀ pre raw r r', P pre r → r.step env pre.length raw = some r' → P (pre ++ [raw]) r')
    {ds : List Raw.Directive} {r : Run L} (h : Run.loop env 0 ds {} = some r) : P ds r := by
  have aux : ∀ (ds pre : List Raw.Directive) (r r' : Run L), P pre r →
      Run.loop env pre.length ds r = some r' → P (pre ++ ds) r' := by
    intro ds
    induction ds with
    | nil => intro pre r r' hp hl; simp only [Run.loop, Option.some.injEq] at hl; simpa [← hl] using hp
    | cons d ds ih =>
      intro pre r r' hp hl
      simp only [Run.loop] at hl
      cases hst : r.step env pre.length d with
      | none => simp [hst] at hl
      | some r1 =>
        simp only [hst] at hl
        have := ih (pre ++ [d]) r1 r' (hs pre d r r1 hp hst) (by simpa using hl)
        simpa using this
  exact aux ds [] {} r h0 h

/-! ### Lookups -/

theorem State.validateAccount_none {st : State L} {acc : Str} {e : ElementIdx} :
    st.validateAccount acc e = none ↔ st.opened.has acc = true := by
  unfold State.validateAccount
  split
  · simp [*]
  · rename_i h
    simp only [h]
    split <;> simp

theorem State.getValidAccount_ok {st : State L} {acc : Str} {e : ElementIdx} {a : Account L} :
    st.getValidAccount acc e = .ok a ↔ st.opened.has acc = true ∧ st.accounts.get acc = some a := by
  unfold State.getValidAccount
  cases h : st.validateAccount acc e with
  | some r =>
    simp only [reduceCtorEq, false_iff, not_and]
    intro h2
    rw [← State.validateAccount_none (e := e)] at h2
    simp [h] at h2
  | none =>
    rw [State.validateAccount_none] at h
    cases h2 : st.accounts.get acc <;> simp [h]

theorem State.getValidAccount_err {st : State L} {acc : Str} {e : ElementIdx} {x : IndexedReport} :
    st.getValidAccount acc e = .err x ↔ st.validateAccount acc e = some x := by
  unfold State.getValidAccount
  cases h : st.validateAccount acc e with
  | some r => simp
  | none => cases h2 : st.accounts.get acc <;> simp

theorem State.getValidAccount_panic {st : State L} {acc : Str} {e : ElementIdx} :
    st.getValidAccount acc e = .panic ↔ st.opened.has acc = true ∧ st.accounts.get acc = none := by
  unfold State.getValidAccount
  cases h : st.validateAccount acc e with
  | some r =>
    simp only [reduceCtorEq, false_iff, not_and]
    intro h2
    rw [← State.validateAccount_none (e := e)] at h2
    simp [h] at h2
  | none =>
    rw [State.validateAccount_none] at h
    cases h2 : st.accounts.get acc <;> simp [h]

theorem State.validateAccount_some {st : State L} {acc : Str} {e : ElementIdx} {x : IndexedReport}
    (h : st.validateAccount acc e = some x) :
    st.opened.has acc = false ∧
      ((∃ c, st.closed.get acc = some c ∧ x = (e.report .accountClosed).relatedTo c) ∨
       (st.closed.get acc = none ∧ x = e.report .accountNotOpen)) := by
  unfold State.validateAccount at h
  split at h
  · cases h
  · rename_i ho
    refine ⟨by simpa using ho, ?_⟩
    split at h
    · rename_i c hc
      left; exact ⟨c, hc, by simpa using h.symm⟩
    · rename_i hc
      right; exact ⟨hc, by simpa using h.symm⟩

theorem Account.validateCurrency_none {a : Account L} {cur : Str} {e : ElementIdx} :
    a.validateCurrency cur e = none ↔ a.isCurrencyValid cur = true := by
  unfold Account.validateCurrency
  split <;> simp [*]

theorem Account.validateCurrency_some {a : Account L} {cur : Str} {e : ElementIdx} {x : IndexedReport}
    (h : a.validateCurrency cur e = some x) :
    a.isCurrencyValid cur = false ∧ x = (e.report .currencyIncompatible).relatedTo a.opened := by
  unfold Account.validateCurrency at h
  split at h
  · cases h
  · rename_i hc
    exact ⟨by simpa using hc, by simpa using h.symm⟩

/-! ### States which differ in holdings only -/

/-- Two accounts which differ in holdings only. -/
structure SameMetaA (a a' : Account L) : Prop where
  allowed : a'.allowed = a.allowed
  opened : a'.opened = a.opened
  pad : a'.pad = a.pad
  window : a'.window = a.window
  booking : a'.booking = a.booking

theorem SameMetaA.refl (a : Account L) : SameMetaA a a := ⟨rfl, rfl, rfl, rfl, rfl⟩

theorem SameMetaA.trans {a b c : Account L} (h : SameMetaA a b) (h' : SameMetaA b c) : SameMetaA a c :=
  ⟨h'.1.trans h.1, h'.2.trans h.2, h'.3.trans h.3, h'.4.trans h.4, h'.5.trans h.5⟩

theorem SameMetaA.symm {a b : Account L} (h : SameMetaA a b) : SameMetaA b a :=
  ⟨h.1.symm, h.2.symm, h.3.symm, h.4.symm, h.5.symm⟩

/-- Two states which differ in holdings only. -/
structure SameMeta (st st' : State L) : Prop where
  opened : st'.opened = st.opened
  closed : st'.closed = st.closed
  warnings : st'.warnings = st.warnings
  keys : AMap.keys st'.accounts = AMap.keys st.accounts
  accounts : ∀ k a', st'.accounts.get k = some a' → ∃ a, st.accounts.get k = some a ∧ SameMetaA a a'

theorem SameMeta.refl (st : State L) : SameMeta st st :=
  ⟨rfl, rfl, rfl, rfl, fun _ a' h => ⟨a', h, .refl _⟩⟩

theorem SameMeta.trans {a b c : State L} (h : SameMeta a b) (h' : SameMeta b c) : SameMeta a c := by
  refine ⟨h'.1.trans h.1, h'.2.trans h.2, h'.3.trans h.3, h'.4.trans h.4, ?_⟩
  intro k x hx
  obtain ⟨y, hy, hyx⟩ := h'.5 k x hx
  obtain ⟨z, hz, hzy⟩ := h.5 k y hy
  exact ⟨z, hz, hzy.trans hyx⟩

theorem SameMeta.forward {st st' : State L} (h : SameMeta st st') {k : Str} {a : Account L}
    (ha : st.accounts.get k = some a) : ∃ a', st'.accounts.get k = some a' ∧ SameMetaA a a' := by
  have hk : k ∈ AMap.keys st.accounts := (AMap.mem_keys_iff _ _).2 ⟨a, ha⟩
  rw [← h.keys, AMap.mem_keys_iff] at hk
  obtain ⟨a', ha'⟩ := hk
  obtain ⟨b, hb, hs⟩ := h.accounts k a' ha'
  rw [ha] at hb
  cases hb
  exact ⟨a', ha', hs⟩

theorem SameMeta.setAccount {st : State L} {k : Str} {a a' : Account L} (ha : st.accounts.get k = some a)
    (hs : SameMetaA a a') : SameMeta st (st.setAccount k a') := by
  refine ⟨rfl, rfl, rfl, ?_, ?_⟩
  · simp only [State.setAccount, AMap.keys_set]
    rw [if_pos ((AMap.mem_keys_iff _ _).2 ⟨a, ha⟩)]
  · intro j b hb
    simp only [State.setAccount, AMap.get_set] at hb
    split at hb
    · rename_i hj
      subst hj
      cases hb
      exact ⟨a, ha, hs⟩
    · exact ⟨b, hb, .refl _⟩

theorem State.installInventory_sameMeta {e : ElementIdx} {us : List (Str × L.Pos)} {st st' : State L} :
    (State.installInventory e st us = .ok st' () ∨ ∃ x, State.installInventory e st us = .err st' x) →
    SameMeta st st' := by
  induction us generalizing st with
  | nil =>
    rintro (h | ⟨x, h⟩)
    · simp only [State.installInventory, Res.ok.injEq, and_true] at h
      subst h; exact .refl _
    · simp [State.installInventory] at h
  | cons u us ih =>
    obtain ⟨acc, pos⟩ := u
    simp only [State.installInventory]
    cases hg : st.getValidAccount acc e with
    | ok a =>
      simp only
      intro h
      have h1 := ih h
      have h2 : SameMeta st (st.setAccount acc { a with positions := pos }) :=
        SameMeta.setAccount (State.getValidAccount_ok.1 hg).2 ⟨rfl, rfl, rfl, rfl, rfl⟩
      exact h2.trans h1
    | err r =>
      rintro (h | ⟨x, h⟩)
      · cases h
      · simp only [Res.err.injEq] at h
        rw [← h.1]; exact .refl _
    | panic =>
      rintro (h | ⟨x, h⟩) <;> cases h

/-! ### Inversion of the operations -/

theorem State.transaction_ok {env : Env L} {st st' : State L} {t : Raw.Transaction} {date : Date} {e : ElementIdx}
    {v : Booked.Variant} (h : st.transaction env t date e = .ok st' v) :
    ∃ r, L.book date t.postings env.tolerance st.inventory (st.bookingFor env) = .ok r ∧
      st.firstPostingError e 0 (r.interpolated.zip t.postings) = .ok () ∧
      State.installInventory e st r.updated = .ok st' () ∧
      v = .transaction { flag := t.flag, payee := t.payee, narration := t.narration,
                         postings := bookedPostings 0 (r.interpolated.zip t.postings) } := by
  unfold State.transaction State.book at h
  cases hb : L.book date t.postings env.tolerance st.inventory (st.bookingFor env) with
  | error x => cases x <;> simp [hb] at h
  | ok r =>
    simp only [hb] at h
    refine ⟨r, rfl, ?_⟩
    cases hf : st.firstPostingError e 0 (r.interpolated.zip t.postings) with
    | err x => simp [hf] at h
    | panic => simp [hf] at h
    | ok u =>
      simp only [hf] at h
      cases hi : State.installInventory e st r.updated with
      | err s x => simp [hi] at h
      | panic => simp [hi] at h
      | ok s u =>
        simp only [hi, Res.ok.injEq] at h
        exact ⟨rfl, by rw [h.1], h.2.symm⟩

theorem State.transaction_err {env : Env L} {st st' : State L} {t : Raw.Transaction} {date : Date} {e : ElementIdx}
    {x : IndexedReport} (h : st.transaction env t date e = .err st' x) :
    (st' = st ∧ ∃ text, L.book date t.postings env.tolerance st.inventory (st.bookingFor env) = .error (.transaction text) ∧
        x = e.report (.library text)) ∨
    (st' = st ∧ ∃ i text, L.book date t.postings env.tolerance st.inventory (st.bookingFor env) = .error (.posting i text) ∧
        x = e.report (.libraryPosting text i)) ∨
    (∃ r, L.book date t.postings env.tolerance st.inventory (st.bookingFor env) = .ok r ∧
      ((st' = st ∧ st.firstPostingError e 0 (r.interpolated.zip t.postings) = .err x) ∨
       (st.firstPostingError e 0 (r.interpolated.zip t.postings) = .ok () ∧
        State.installInventory e st r.updated = .err st' x))) := by
  unfold State.transaction State.book at h
  cases hb : L.book date t.postings env.tolerance st.inventory (st.bookingFor env) with
  | error y =>
    cases y with
    | transaction text =>
      simp only [hb, Res.err.injEq] at h
      exact Or.inl ⟨h.1.symm, text, rfl, h.2.symm⟩
    | posting i text =>
      simp only [hb, Res.err.injEq] at h
      exact Or.inr (Or.inl ⟨h.1.symm, i, text, rfl, h.2.symm⟩)
  | ok r =>
    simp only [hb] at h
    refine Or.inr (Or.inr ⟨r, rfl, ?_⟩)
    cases hf : st.firstPostingError e 0 (r.interpolated.zip t.postings) with
    | err x =>
      simp only [hf, Res.err.injEq] at h
      exact Or.inl ⟨h.1.symm, by rw [h.2]⟩
    | panic => simp [hf] at h
    | ok u =>
      simp only [hf] at h
      refine Or.inr ⟨rfl, ?_⟩
      cases hi : State.installInventory e st r.updated with
      | err s x =>
        simp only [hi, Res.err.injEq] at h
        rw [h.1, h.2]
      | panic => simp [hi] at h
      | ok s u => simp [hi] at h

theorem State.opn_ok {env : Env L} {st st' : State L} {o : Raw.Open} {e : ElementIdx} {v : Booked.Variant}
    (h : st.opn env o e = .ok st' v) :
    st.opened.get o.acc = none ∧ st.closed.get o.acc = none ∧ v = .opn o ∧
    st'.opened = st.opened.set o.acc e ∧ st'.closed = st.closed ∧
    st'.accounts = st.accounts.set o.acc (Account.new (o.currencies.getD [])
      (if L.supported (o.booking.getD env.defaultBooking) then o.booking.getD env.defaultBooking else L.dflt) e) := by
  unfold State.opn at h
  cases h1 : st.opened.get o.acc with
  | some p => simp [h1] at h
  | none =>
    simp only [h1] at h
    cases h2 : st.closed.get o.acc with
    | some c => simp [h2] at h
    | none =>
      simp only [h2, Res.ok.injEq] at h
      obtain ⟨h3, h4⟩ := h
      subst h3
      exact ⟨rfl, rfl, h4.symm, rfl, rfl, rfl⟩

theorem State.opn_err {env : Env L} {st st' : State L} {o : Raw.Open} {e : ElementIdx} {x : IndexedReport}
    (h : st.opn env o e = .err st' x) :
    (∃ prev, st.opened.get o.acc = some prev ∧ st' = st ∧ x = (e.report .alreadyOpened).relatedTo prev) ∨
    (∃ closed, st.opened.get o.acc = none ∧ st.closed.get o.acc = some closed ∧
      st' = { st with opened := st.opened.set o.acc e } ∧ x = (e.report .accountClosed).relatedTo closed) := by
  unfold State.opn at h
  cases h1 : st.opened.get o.acc with
  | some p =>
    simp only [h1, Res.err.injEq] at h
    exact Or.inl ⟨p, rfl, h.1.symm, h.2.symm⟩
  | none =>
    simp only [h1] at h
    cases h2 : st.closed.get o.acc with
    | some c =>
      simp only [h2, Res.err.injEq] at h
      exact Or.inr ⟨c, rfl, rfl, h.1.symm, h.2.symm⟩
    | none => simp [h2] at h

theorem State.opn_ne_panic {env : Env L} {st : State L} {o : Raw.Open} {e : ElementIdx} :
    st.opn env o e ≠ .panic := by
  unfold State.opn
  cases h1 : st.opened.get o.acc with
  | some p => simp
  | none =>
    cases h2 : st.closed.get o.acc <;> simp [h2]

theorem State.close_ok {st st' : State L} {c : Raw.Close} {e : ElementIdx} {v : Booked.Variant}
    (h : st.close c e = .ok st' v) :
    (∃ p, st.opened.get c.acc = some p) ∧ st.closed.get c.acc = none ∧ v = .close c ∧
    st' = { st with opened := st.opened.del c.acc, closed := st.closed.set c.acc e } := by
  unfold State.close at h
  cases h1 : st.opened.get c.acc with
  | none => simp [h1] at h
  | some p =>
    simp only [h1] at h
    cases h2 : st.closed.get c.acc with
    | some q => simp [h2] at h
    | none =>
      simp only [h2, Res.ok.injEq] at h
      exact ⟨⟨p, rfl⟩, rfl, h.2.symm, h.1.symm⟩

theorem State.close_err {st st' : State L} {c : Raw.Close} {e : ElementIdx} {x : IndexedReport}
    (h : st.close c e = .err st' x) :
    st' = st ∧
    ((st.opened.get c.acc = none ∧ x = e.report .accountNotOpen) ∨
     (∃ p q, st.opened.get c.acc = some p ∧ st.closed.get c.acc = some q ∧
        x = (e.report .alreadyClosed).relatedTo q)) := by
  unfold State.close at h
  cases h1 : st.opened.get c.acc with
  | none =>
    simp only [h1, Res.err.injEq] at h
    exact ⟨h.1.symm, Or.inl ⟨rfl, h.2.symm⟩⟩
  | some p =>
    simp only [h1] at h
    cases h2 : st.closed.get c.acc with
    | some q =>
      simp only [h2, Res.err.injEq] at h
      exact ⟨h.1.symm, Or.inr ⟨p, q, rfl, rfl, h.2.symm⟩⟩
    | none => simp [h2] at h

theorem State.close_ne_panic {st : State L} {c : Raw.Close} {e : ElementIdx} : st.close c e ≠ .panic := by
  unfold State.close
  cases h1 : st.opened.get c.acc with
  | none => simp
  | some p => cases h2 : st.closed.get c.acc <;> simp

theorem State.pad_ok {st st' : State L} {p : Raw.Pad} {i : Nat} {e : ElementIdx} {v v' : Booked.Variant}
    (h : st.pad p i e = .ok st' (v, v')) :
    ∃ a, st.opened.has p.acc = true ∧ st.accounts.get p.acc = some a ∧ a.pad = none ∧
      st' = st.setAccount p.acc { a with pad := some (i, e) } ∧ v = .pad p ∧
      v' = .transaction { flag := padFlag, postings := [] } := by
  unfold State.pad at h
  cases hg : st.getValidAccount p.acc e with
  | err x => simp [hg] at h
  | panic => simp [hg] at h
  | ok a =>
    simp only [hg] at h
    rw [State.getValidAccount_ok] at hg
    cases hp : a.pad with
    | some q => simp [hp] at h
    | none =>
      simp only [hp, Res.ok.injEq, Prod.mk.injEq] at h
      exact ⟨a, hg.1, hg.2, hp, h.1.symm, h.2.1.symm, h.2.2.symm⟩

theorem State.pad_err {st st' : State L} {p : Raw.Pad} {i : Nat} {e : ElementIdx} {x : IndexedReport}
    (h : st.pad p i e = .err st' x) :
    (st' = st ∧ st.validateAccount p.acc e = some x) ∨
    (∃ a j u, st.opened.has p.acc = true ∧ st.accounts.get p.acc = some a ∧ a.pad = some (j, u) ∧
      st' = st.setAccount p.acc { a with pad := none } ∧ x = (u.report .unusedSecondPad).relatedTo e) := by
  unfold State.pad at h
  cases hg : st.getValidAccount p.acc e with
  | err y =>
    simp only [hg, Res.err.injEq] at h
    rw [State.getValidAccount_err] at hg
    exact Or.inl ⟨h.1.symm, by rw [hg, h.2]⟩
  | panic => simp [hg] at h
  | ok a =>
    simp only [hg] at h
    rw [State.getValidAccount_ok] at hg
    cases hp : a.pad with
    | some q =>
      obtain ⟨j, u⟩ := q
      simp only [hp, Res.err.injEq] at h
      exact Or.inr ⟨a, j, u, hg.1, hg.2, hp, h.1.symm, h.2.symm⟩
    | none => simp [hp] at h

theorem State.pad_panic {st : State L} {p : Raw.Pad} {i : Nat} {e : ElementIdx} (h : st.pad p i e = .panic) :
    st.opened.has p.acc = true ∧ st.accounts.get p.acc = none := by
  unfold State.pad at h
  cases hg : st.getValidAccount p.acc e with
  | err y => simp [hg] at h
  | panic => exact State.getValidAccount_panic.1 hg
  | ok a =>
    simp only [hg] at h
    cases hp : a.pad <;> simp [hp] at h

/-- The margin of a balance directive in a state. -/
def State.marginOf (env : Env L) (st : State L) (b : Raw.Balance) : Option Dec :=
  calculateBalanceMargin b.units (effectiveTolerance env b) (st.totalRollupUnits env b.acc b.cur)

theorem setPostingsAt_some {bk bk' : List Booked.Directive} {i : Nat} {ps : List Booked.Posting} :
    setPostingsAt bk i ps = some bk' ↔
    ∃ d t, bk[i]? = some d ∧ d.variant = .transaction t ∧
      bk' = bk.set i { d with variant := .transaction { t with postings := ps } } := by
  unfold setPostingsAt
  cases h : bk[i]? with
  | none => simp
  | some d => cases hv : d.variant <;> simp [hv, eq_comm]

/-- A directive with its variant replaced by a transaction with given postings. -/
def Booked.Directive.withPostings (d : Booked.Directive) (t : Booked.Transaction) (ps : List Booked.Posting) :
    Booked.Directive :=
  { d with variant := .transaction { t with postings := ps } }

theorem State.fillPad_ok {st st' : State L} {b : Raw.Balance} {m : Dec} {i : Nat}
    {bk bk' : List Booked.Directive} {v : Booked.Variant} (h : st.fillPad b m i bk = .ok st' (v, bk')) :
    ∃ d p d2 t src, bk[i]? = some d ∧ d.variant = .pad p ∧ bk[i+1]? = some d2 ∧ d2.variant = .transaction t ∧
      bk' = bk.set (i+1) (d2.withPostings t (calculateBalancePadPostings b.cur m b.acc p.source)) ∧
      st.accounts.get p.source = some src ∧
      st' = st.setAccount p.source (src.adjustSubtract b.cur m) ∧ v = .balance { raw := b } := by
  unfold State.fillPad at h
  split at h
  · rename_i n date tg ln md p hd
    split at h
    · cases h
    · rename_i bk2 hs
      rw [setPostingsAt_some] at hs
      obtain ⟨d2, t, h1, h2, h3⟩ := hs
      split at h
      · cases h
      · rename_i src hsrc
        simp only [Res.ok.injEq, Prod.mk.injEq] at h
        obtain ⟨h4, h5, h6⟩ := h
        exact ⟨_, p, d2, t, src, hd, rfl, h1, h2, by rw [← h6, h3]; rfl, hsrc, h4.symm, h5.symm⟩
  · cases h

theorem State.fillPad_ne_err {st st' : State L} {b : Raw.Balance} {m : Dec} {i : Nat}
    {bk : List Booked.Directive} {x : IndexedReport} : st.fillPad b m i bk ≠ .err st' x := by
  unfold State.fillPad
  split
  · split
    · simp
    · split <;> simp
  · simp

/-- The state after a failed or padded balance, before any adjustment of a pad source. -/
def State.resetTo (st : State L) (b : Raw.Balance) (a : Account L) (m : Dec) (len : Nat) : State L :=
  st.setAccount b.acc ((a.advance len).adjustAdd b.cur m)

theorem State.balance_ok {env : Env L} {st st' : State L} {b : Raw.Balance} {e : ElementIdx}
    {bk bk' : List Booked.Directive} {v : Booked.Variant} (h : st.balance env b e bk = .ok st' (v, bk')) :
    ∃ a, st.opened.has b.acc = true ∧ st.accounts.get b.acc = some a ∧ a.isCurrencyValid b.cur = true ∧
    ((st.marginOf env b = none ∧ st' = st.setAccount b.acc (a.advance bk.length) ∧
        v = .balance { raw := b, unusedPad := a.pad.map fun p => p.2 } ∧ bk' = bk) ∨
     (∃ m, st.marginOf env b = some m ∧ a.pad = none ∧ st' = st.resetTo b a m bk.length ∧
        v = .balance { raw := b, margin := some m } ∧ bk' = bk) ∨
     (∃ m i e0, st.marginOf env b = some m ∧ a.pad = some (i, e0) ∧
        (st.resetTo b a m bk.length).fillPad b m i bk = .ok st' (v, bk'))) := by
  unfold State.balance at h
  cases hg : st.getValidAccount b.acc e with
  | err x => simp [hg] at h
  | panic => simp [hg] at h
  | ok a =>
    simp only [hg] at h
    rw [State.getValidAccount_ok] at hg
    cases hc : a.validateCurrency b.cur e with
    | some x => simp [hc] at h
    | none =>
      simp only [hc] at h
      rw [Account.validateCurrency_none] at hc
      refine ⟨a, hg.1, hg.2, hc, ?_⟩
      unfold State.marginOf State.resetTo
      cases hm : calculateBalanceMargin b.units (effectiveTolerance env b) (st.totalRollupUnits env b.acc b.cur) with
      | none =>
        simp only [hm, Res.ok.injEq, Prod.mk.injEq] at h
        exact Or.inl ⟨rfl, h.1.symm, h.2.1.symm, h.2.2.symm⟩
      | some m =>
        simp only [hm] at h
        cases hp : a.pad with
        | none =>
          simp only [hp, Res.ok.injEq, Prod.mk.injEq] at h
          exact Or.inr (Or.inl ⟨m, rfl, rfl, h.1.symm, h.2.1.symm, h.2.2.symm⟩)
        | some q =>
          obtain ⟨i, e0⟩ := q
          simp only [hp] at h
          exact Or.inr (Or.inr ⟨m, i, e0, rfl, rfl, h⟩)

theorem State.balance_err {env : Env L} {st st' : State L} {b : Raw.Balance} {e : ElementIdx}
    {bk : List Booked.Directive} {x : IndexedReport} (h : st.balance env b e bk = .err st' x) :
    st' = st ∧ (st.validateAccount b.acc e = some x ∨
      ∃ a, st.opened.has b.acc = true ∧ st.accounts.get b.acc = some a ∧ a.validateCurrency b.cur e = some x) := by
  unfold State.balance at h
  cases hg : st.getValidAccount b.acc e with
  | err y =>
    simp only [hg, Res.err.injEq] at h
    rw [State.getValidAccount_err] at hg
    exact ⟨h.1.symm, Or.inl (by rw [hg, h.2])⟩
  | panic => simp [hg] at h
  | ok a =>
    simp only [hg] at h
    rw [State.getValidAccount_ok] at hg
    cases hc : a.validateCurrency b.cur e with
    | some y =>
      simp only [hc, Res.err.injEq] at h
      exact ⟨h.1.symm, Or.inr ⟨a, hg.1, hg.2, by rw [hc, h.2]⟩⟩
    | none =>
      simp only [hc] at h
      exfalso
      revert h
      cases calculateBalanceMargin b.units (effectiveTolerance env b) (st.totalRollupUnits env b.acc b.cur) with
      | none => simp
      | some m =>
        cases hp : a.pad with
        | none => simp
        | some q => exact State.fillPad_ne_err

/-! ### Inversion of a step -/

theorem Run.step_some {env : Env L} {n : Nat} {raw : Raw.Directive} {r r' : Run L}
    (h : r.step env n raw = some r') :
    (∃ st' x, r.st.directive env raw { directive := n } r.booked = .err st' x ∧
      r' = { st := st', booked := r.booked, errors := r.errors ++ [x] }) ∨
    (∃ st' v v2 bk errs, r.st.directive env raw { directive := n } r.booked = .ok st' (v, v2, bk) ∧
      balanceErrors st' { directive := n } bk v = some errs ∧
      r' = { st := st', booked := bk ++ [mkBooked n raw v] ++ (v2.map (mkBooked n raw)).toList,
             errors := r.errors ++ errs }) := by
  unfold Run.step at h
  cases hd : r.st.directive env raw { directive := n } r.booked with
  | err st x =>
    simp only [hd, Option.some.injEq] at h
    exact Or.inl ⟨st, x, rfl, h.symm⟩
  | panic => simp [hd] at h
  | ok st s =>
    obtain ⟨v, v2, bk⟩ := s
    simp only [hd] at h
    cases he : balanceErrors st { directive := n } bk v with
    | none => simp [he] at h
    | some errs =>
      simp only [he, Option.some.injEq] at h
      exact Or.inr ⟨st, v, v2, bk, errs, rfl, he, h.symm⟩

/-- Kinds of directives whose booking involves no state. -/
def plainVariant : Raw.Variant → Option Booked.Variant
  | .price p => some (.price p)
  | .commodity c => some (.commodity c)
  | .document x => some (.document x)
  | .note x => some (.note x)
  | .event x => some (.event x)
  | .query x => some (.query x)
  | .custom x => some (.custom x)
  | _ => none

/-- All the ways in which a directive is booked. -/
theorem State.directive_ok {env : Env L} {st st' : State L} {d : Raw.Directive} {e : ElementIdx}
    {bk bk' : List Booked.Directive} {v : Booked.Variant} {v2 : Option Booked.Variant}
    (h : st.directive env d e bk = .ok st' (v, v2, bk')) :
    (∃ t, d.variant = .transaction t ∧ st.transaction env t d.date e = .ok st' v ∧ v2 = none ∧ bk' = bk) ∨
    (∃ b, d.variant = .balance b ∧ st.balance env b e bk = .ok st' (v, bk') ∧ v2 = none) ∨
    (∃ o, d.variant = .opn o ∧ st.opn env o e = .ok st' v ∧ v2 = none ∧ bk' = bk) ∨
    (∃ c, d.variant = .close c ∧ st.close c e = .ok st' v ∧ v2 = none ∧ bk' = bk) ∨
    (∃ p v', d.variant = .pad p ∧ st.pad p bk.length e = .ok st' (v, v') ∧ v2 = some v' ∧ bk' = bk) ∨
    (plainVariant d.variant = some v ∧ st' = st ∧ v2 = none ∧ bk' = bk) := by
  unfold State.directive at h
  cases hd : d.variant with
  | transaction t =>
    simp only [hd] at h
    cases ht : st.transaction env t d.date e <;> simp [ht, Res.plain] at h
    obtain ⟨h1, h2, h3, h4⟩ := h
    subst h1 h2 h3 h4
    exact Or.inl ⟨t, rfl, ht, rfl, rfl⟩
  | balance b =>
    simp only [hd] at h
    cases ht : st.balance env b e bk <;> simp [ht] at h
    rename_i s p
    obtain ⟨p1, p2⟩ := p
    obtain ⟨h1, h2, h3, h4⟩ := h
    simp only at h2 h4
    subst h1 h2 h3 h4
    exact Or.inr (Or.inl ⟨b, rfl, ht, rfl⟩)
  | opn o =>
    simp only [hd] at h
    cases ht : st.opn env o e <;> simp [ht, Res.plain] at h
    obtain ⟨h1, h2, h3, h4⟩ := h
    subst h1 h2 h3 h4
    exact Or.inr (Or.inr (Or.inl ⟨o, rfl, ht, rfl, rfl⟩))
  | close c =>
    simp only [hd] at h
    cases ht : st.close c e <;> simp [ht, Res.plain] at h
    obtain ⟨h1, h2, h3, h4⟩ := h
    subst h1 h2 h3 h4
    exact Or.inr (Or.inr (Or.inr (Or.inl ⟨c, rfl, ht, rfl, rfl⟩)))
  | pad p =>
    simp only [hd] at h
    cases ht : st.pad p bk.length e <;> simp [ht] at h
    rename_i s q
    obtain ⟨q1, q2⟩ := q
    obtain ⟨h1, h2, h3, h4⟩ := h
    simp only at h2 h3
    subst h1 h2 h3 h4
    exact Or.inr (Or.inr (Or.inr (Or.inr (Or.inl ⟨p, q2, rfl, ht, rfl, rfl⟩))))
  | price p => simp only [hd, Res.ok.injEq, Prod.mk.injEq] at h; simp [plainVariant, h]
  | commodity p => simp only [hd, Res.ok.injEq, Prod.mk.injEq] at h; simp [plainVariant, h]
  | document p => simp only [hd, Res.ok.injEq, Prod.mk.injEq] at h; simp [plainVariant, h]
  | note p => simp only [hd, Res.ok.injEq, Prod.mk.injEq] at h; simp [plainVariant, h]
  | event p => simp only [hd, Res.ok.injEq, Prod.mk.injEq] at h; simp [plainVariant, h]
  | query p => simp only [hd, Res.ok.injEq, Prod.mk.injEq] at h; simp [plainVariant, h]
  | custom p => simp only [hd, Res.ok.injEq, Prod.mk.injEq] at h; simp [plainVariant, h]

/-- All the ways in which a directive is rejected. -/
theorem State.directive_err {env : Env L} {st st' : State L} {d : Raw.Directive} {e : ElementIdx}
    {bk : List Booked.Directive} {x : IndexedReport}
    (h : st.directive env d e bk = .err st' x) :
    (∃ t, d.variant = .transaction t ∧ st.transaction env t d.date e = .err st' x) ∨
    (∃ b, d.variant = .balance b ∧ st.balance env b e bk = .err st' x) ∨
    (∃ o, d.variant = .opn o ∧ st.opn env o e = .err st' x) ∨
    (∃ c, d.variant = .close c ∧ st.close c e = .err st' x) ∨
    (∃ p, d.variant = .pad p ∧ st.pad p bk.length e = .err st' x) := by
  unfold State.directive at h
  cases hd : d.variant with
  | transaction t =>
    simp only [hd] at h
    cases ht : st.transaction env t d.date e <;> simp [ht, Res.plain] at h
    obtain ⟨h1, h2⟩ := h; subst h1 h2
    exact Or.inl ⟨t, rfl, ht⟩
  | balance b =>
    simp only [hd] at h
    cases ht : st.balance env b e bk <;> simp [ht] at h
    obtain ⟨h1, h2⟩ := h; subst h1 h2
    exact Or.inr (Or.inl ⟨b, rfl, ht⟩)
  | opn o =>
    simp only [hd] at h
    cases ht : st.opn env o e <;> simp [ht, Res.plain] at h
    obtain ⟨h1, h2⟩ := h; subst h1 h2
    exact Or.inr (Or.inr (Or.inl ⟨o, rfl, ht⟩))
  | close c =>
    simp only [hd] at h
    cases ht : st.close c e <;> simp [ht, Res.plain] at h
    obtain ⟨h1, h2⟩ := h; subst h1 h2
    exact Or.inr (Or.inr (Or.inr (Or.inl ⟨c, rfl, ht⟩)))
  | pad p =>
    simp only [hd] at h
    cases ht : st.pad p bk.length e <;> simp [ht] at h
    obtain ⟨h1, h2⟩ := h; subst h1 h2
    exact Or.inr (Or.inr (Or.inr (Or.inr ⟨p, rfl, ht⟩)))
  | price p => simp [hd] at h
  | commodity p => simp [hd] at h
  | document p => simp [hd] at h
  | note p => simp [hd] at h
  | event p => simp [hd] at h
  | query p => simp [hd] at h
  | custom p => simp [hd] at h

end Limabean
