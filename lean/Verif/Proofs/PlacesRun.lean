/-
Booking with decimals of limited size, in step with exact booking.
-/
import Verif.Proofs.PlacesLemmas
import Verif.Proofs.Image

namespace Limabean
open Spec

variable {L : BookLib} {E : L.Pos → L.Pos → Prop}

/-! ### What a balance does to the ledger and to holdings -/

theorem balanceWith_ok {st st' : State L} {x : Option Dec} {b : Raw.Balance} {e : ElementIdx}
    {bk bk' : List Booked.Directive} {v : Booked.Variant} (h : st.balanceWith x b e bk = .ok st' (v, bk')) :
    ∃ a, st.accounts.get b.acc = some a ∧
    ((x = none ∧ st' = st.setAccount b.acc (a.advance bk.length) ∧ bk' = bk) ∨
     (∃ m, x = some m ∧ st' = st.resetTo b a m bk.length ∧ bk' = bk) ∨
     (∃ m i e0, x = some m ∧ a.pad = some (i, e0) ∧ (st.resetTo b a m bk.length).fillPad b m i bk = .ok st' (v, bk'))) := by
  unfold State.balanceWith at h
  cases hg : st.getValidAccount b.acc e with
  | err x => simp [hg] at h
  | panic => simp [hg] at h
  | ok a =>
    simp only [hg] at h
    rw [State.getValidAccount_ok] at hg
    cases hc : a.validateCurrency b.cur e with
    | some x => simp [hc] at h
    | none =>
      simp only [hc] at h
      refine ⟨a, hg.2, ?_⟩
      unfold State.resetTo
      cases x with
      | none =>
        simp only [Res.ok.injEq, Prod.mk.injEq] at h
        exact Or.inl ⟨rfl, h.1.symm, h.2.2.symm⟩
      | some m =>
        cases hp : a.pad with
        | none =>
          simp only [hp, Res.ok.injEq, Prod.mk.injEq] at h
          exact Or.inr (Or.inl ⟨m, rfl, h.1.symm, h.2.2.symm⟩)
        | some q =>
          obtain ⟨i, e0⟩ := q
          simp only [hp] at h
          exact Or.inr (Or.inr ⟨m, i, e0, rfl, rfl, h⟩)

theorem postings_append (l m : List Booked.Directive) : postings (l ++ m) = postings l ++ postings m := by
  simp [postings]

theorem postings_set_sublist {ds : List Booked.Directive} {i : Nat} {d d' : Booked.Directive} (h : ds[i]? = some d)
    (he : postingsOf d = []) : (postings ds).Sublist (postings (ds.set i d')) := by
  induction ds generalizing i with
  | nil => simp at h
  | cons x ds ih =>
    cases i with
    | zero =>
      simp only [List.getElem?_cons_zero, Option.some.injEq] at h
      subst h
      simp [postings, he]
    | succ i =>
      simp only [List.getElem?_cons_succ] at h
      simpa [postings] using (ih h)

/-- Pending pads have no postings yet. -/
def PadsEmpty (st : State L) (bk : List Booked.Directive) : Prop :=
  ∀ k a i e, st.accounts.get k = some a → a.pad = some (i, e) → ∀ d, bk[i + 1]? = some d → postingsOf d = []

theorem StInv.padsEmpty {n : Nat} {bk : List Booked.Directive} {st : State L} (h : StInv n bk st) : PadsEmpty st bk := by
  intro k a i e ha hp d hd
  obtain ⟨f, q, f2, u, g1, g2, g3, g4, g5, g6, g7, g8⟩ := h.pad _ _ _ _ ha hp
  rw [hd] at g5
  cases g5
  simp [postingsOf, g6, g7]

theorem postingsOf_near {d e : Booked.Directive} (h : DirectiveNear d e) : List.Forall₂ PostingNear (postingsOf d) (postingsOf e) := by
  have := postings_near (List.Forall₂.cons h .nil)
  simpa [postings] using this

theorem PadsEmpty.near {s t : State L} {l m : List Booked.Directive} (hs : StateNear E s t) (hl : LedgerNear l m) (h : PadsEmpty t m) :
    PadsEmpty s l := by
  intro k a i e ha hp d hd
  have hg := hs.accounts.get k
  rw [ha] at hg
  cases hg' : t.accounts.get k with
  | none => rw [hg'] at hg; cases hg
  | some b =>
    rw [hg'] at hg
    cases hg with
    | some hab =>
      have hk := hl.at (i + 1)
      rw [hd] at hk
      cases hm : m[i + 1]? with
      | none => rw [hm] at hk; cases hk
      | some f =>
        rw [hm] at hk
        cases hk with
        | some hdf =>
          have := postingsOf_near hdf
          rw [h k b i e hg' (by rw [← hab.pad]; exact hp) f hm] at this
          exact List.forall₂_nil_right_iff.1 this

theorem balanceWith_sublist {st st' : State L} {x : Option Dec} {b : Raw.Balance} {e : ElementIdx}
    {bk bk' : List Booked.Directive} {v : Booked.Variant} (hp : PadsEmpty st bk) (h : st.balanceWith x b e bk = .ok st' (v, bk')) :
    (postings bk).Sublist (postings bk') := by
  obtain ⟨a, ha, ⟨-, -, rfl⟩ | ⟨m, -, -, rfl⟩ | ⟨m, i, e0, -, hpad, hf⟩⟩ := balanceWith_ok h
  · exact List.Sublist.refl _
  · exact List.Sublist.refl _
  · obtain ⟨d, p, d2, t, src, h1, h2, h3, h4, rfl, h6, rfl, rfl⟩ := State.fillPad_ok hf
    exact postings_set_sublist h3 (hp _ _ _ _ ha hpad _ h3)

theorem HeldPlaces.setAccount {n : Nat} {st : State L} (h : HeldPlaces n st) (k : Str) (a : Account L)
    (ha : ∀ c, (L.units a.positions c).s ≤ n) : HeldPlaces n (st.setAccount k a) := by
  intro ka hka
  rcases AMap.mem_set hka with rfl | hka
  · exact ha
  · exact h ka hka

theorem HeldPlaces.get {n : Nat} {st : State L} (h : HeldPlaces n st) {k : Str} {a : Account L} (ha : st.accounts.get k = some a) (c : Str) :
    (L.units a.positions c).s ≤ n := h _ (AMap.mem_of_get ha) c

theorem balanceWith_places (hC : CountsPlaces L) {st st' : State L} {x : Option Dec} {b : Raw.Balance} {e : ElementIdx}
    {bk bk' : List Booked.Directive} {v : Booked.Variant} {n : Nat} (hs : HeldPlaces n st) (hx : ∀ y ∈ x, y.s ≤ n)
    (h : st.balanceWith x b e bk = .ok st' (v, bk')) : HeldPlaces n st' := by
  obtain ⟨a, ha, ⟨-, rfl, -⟩ | ⟨m, rfl, rfl, -⟩ | ⟨m, i, e0, rfl, -, hf⟩⟩ := balanceWith_ok h
  · exact hs.setAccount _ _ fun c => hs.get ha c
  · exact hs.setAccount _ _ fun c => hC.accumulate _ _ _ _ _ _ (hs.get ha c) (hx m rfl)
  · have hr : HeldPlaces n (st.resetTo b a m bk.length) :=
      hs.setAccount _ _ fun c => hC.accumulate _ _ _ _ _ _ (hs.get ha c) (hx m rfl)
    obtain ⟨d, p, d2, t, src, h1, h2, h3, h4, rfl, h6, rfl, rfl⟩ := State.fillPad_ok hf
    exact hr.setAccount _ _ fun c => hC.accumulate _ _ _ _ _ _ (hr.get h6 c) (hx m rfl)

theorem postings_set_mem {ds : List Booked.Directive} {i : Nat} {d : Booked.Directive} {p : Booked.Posting}
    (h : p ∈ postings (ds.set i d)) : p ∈ postings ds ∨ p ∈ postingsOf d := by
  unfold postings at h ⊢
  obtain ⟨x, hx, hp⟩ := List.mem_flatMap.1 h
  rcases List.mem_or_eq_of_mem_set hx with hx | rfl
  · exact .inl (List.mem_flatMap.2 ⟨x, hx, hp⟩)
  · exact .inr hp

theorem balanceWith_posted {st st' : State L} {x : Option Dec} {b : Raw.Balance} {e : ElementIdx}
    {bk bk' : List Booked.Directive} {v : Booked.Variant} {n : Nat} (hs : ∀ p ∈ postings bk, p.units.s ≤ n) (hx : ∀ y ∈ x, y.s ≤ n)
    (h : st.balanceWith x b e bk = .ok st' (v, bk')) : ∀ p ∈ postings bk', p.units.s ≤ n := by
  obtain ⟨a, ha, ⟨-, -, rfl⟩ | ⟨m, -, -, rfl⟩ | ⟨m, i, e0, rfl, -, hf⟩⟩ := balanceWith_ok h
  · exact hs
  · exact hs
  · obtain ⟨d, p, d2, t, src, h1, h2, h3, h4, rfl, h6, rfl, rfl⟩ := State.fillPad_ok hf
    intro p hp
    rcases postings_set_mem hp with hp | hp
    · exact hs p hp
    · have hm : m.s ≤ n := hx m rfl
      simp only [postingsOf, calculateBalancePadPostings] at hp
      rcases List.mem_cons.1 hp with rfl | hp
      · exact hm
      · rw [List.mem_singleton.1 hp]
        exact hm

/-! ### What a transaction does to holdings -/

theorem installInventory_places {n : Nat} {e : ElementIdx} : ∀ {us : List (Str × L.Pos)} {st st' : State L}, HeldPlaces n st →
    (∀ a q, (a, q) ∈ us → ∀ c, (L.units q c).s ≤ n) → State.installInventory e st us = .ok st' () → HeldPlaces n st'
  | [], st, st', hs, _, h => by
    simp only [State.installInventory, Res.ok.injEq, and_true] at h
    exact h ▸ hs
  | (a, q) :: us, st, st', hs, hu, h => by
    unfold State.installInventory at h
    cases hg : st.getValidAccount a e with
    | err x => simp [hg] at h
    | panic => simp [hg] at h
    | ok x =>
      simp only [hg] at h
      exact installInventory_places (hs.setAccount _ _ (hu a q (by simp))) (fun a' q' hq => hu a' q' (by simp [hq])) h

theorem lotPlaces_of {n : Nat} : ∀ (is : List Interpolated) (ps : List Raw.PostingSpec) (i : Nat), is.length = ps.length →
    (∀ p ∈ bookedPostings i (is.zip ps), p.units.s ≤ n) → ∀ x ∈ is, LotPlaces n x
  | [], _, _, _, _, x, hx => by cases hx
  | y :: is, [], _, hl, _, _, _ => by simp at hl
  | y :: is, p :: ps, i, hl, h, x, hx => by
    simp only [List.zip_cons_cons, bookedPostings, List.mem_append] at h
    rcases List.mem_cons.1 hx with rfl | hx
    · unfold LotPlaces
      cases hc : x.cost with
      | some lots =>
        intro l hl'
        have := fun p hp => h p (.inl hp)
        simp only [bookedPostingsOf, hc, List.mem_map] at this
        exact this _ ⟨l, hl', rfl⟩
      | none =>
        have := fun p hp => h p (.inl hp)
        simp only [bookedPostingsOf, hc, List.mem_singleton] at this
        exact this _ rfl
    · exact lotPlaces_of is ps (i + 1) (by simpa using hl) (fun p hp => h p (.inr hp)) x hx

theorem directive_places (hL : L.Lawful) (hC : CountsPlaces L) {n m : Nat} {env : Env L} {st st' : State L} {raw : Raw.Directive} {e : ElementIdx}
    {bk bk' : List Booked.Directive} {v : Booked.Variant} {v2 : Option Booked.Variant} (hb : ∀ b, raw.variant ≠ .balance b)
    (hs : HeldPlaces n st) (h : st.directive env raw e bk = .ok st' (v, v2, bk')) (hv : ∀ p ∈ postingsOf (mkBooked m raw v), p.units.s ≤ n) :
    HeldPlaces n st' := by
  rcases State.directive_ok h with ⟨t, -, ht, rfl, rfl⟩ | ⟨b, hb', -⟩ | ⟨o, -, ho, rfl, rfl⟩ |
      ⟨c, -, hc, rfl, rfl⟩ | ⟨p, v', -, hp, rfl, rfl⟩ | ⟨-, rfl, rfl, rfl⟩
  · obtain ⟨q, hq, -, hi, rfl⟩ := State.transaction_ok ht
    refine installInventory_places hs ?_ hi
    refine hC.book n _ _ _ _ _ q hq ?_ (lotPlaces_of _ _ 0 (hL.book_length _ _ _ _ _ _ hq) hv)
    intro a p c hap
    unfold State.inventory at hap
    cases ha : st.accounts.get a with
    | none => simp [ha] at hap
    | some x =>
      simp only [ha, Option.map_some, Option.some.injEq] at hap
      exact hap ▸ hs.get ha c
  · exact absurd hb' (hb b)
  · obtain ⟨h1, h2, rfl, h3, h4, h5⟩ := State.opn_ok ho
    intro ka hka
    rw [h5] at hka
    rcases AMap.mem_set hka with rfl | hka
    · intro c
      simp [Account.new, hC.empty]
    · exact hs ka hka
  · obtain ⟨-, -, rfl, rfl⟩ := State.close_ok hc
    exact hs
  · obtain ⟨a, -, ha, hpn, rfl, rfl, rfl⟩ := State.pad_ok hp
    exact hs.setAccount _ _ fun c => hs.get ha c
  · exact hs

/-! ### One step -/

/-- Results of a directive which is no balance. -/
def PlainNear (l m : List Booked.Directive) (a b : Stepped) : Prop :=
  a.1 = b.1 ∧ a.2.1 = b.2.1 ∧ a.2.2 = l ∧ b.2.2 = m ∧ ∀ x, a.1 ≠ .balance x

theorem ResNear.plain {s t : Res (State L) Booked.Variant} {l m : List Booked.Directive} (h : ResNear E Eq s t)
    (hs : ∀ st v, s = .ok st v → ∀ x, v ≠ .balance x) : ResNear E (PlainNear l m) (s.plain l) (t.plain m) := by
  cases h with
  | ok h1 h2 => exact .ok h1 ⟨h2, rfl, rfl, rfl, hs _ _ rfl⟩
  | bad h1 h2 =>
    refine .bad ?_ ?_
    · cases s with
      | ok s u => exact absurd rfl (h1 s u)
      | err s e => exact .err _ _
      | panic => exact .panic
    · cases t with
      | ok s u => exact absurd rfl (h2 s u)
      | err s e => exact .err _ _
      | panic => exact .panic

theorem StateNear.directive {s t : State L} (hE : PlacesBlind L E) (h : StateNear E s t) {env env' : Env L}
    (hd : env.defaultBooking = env'.defaultBooking) (ht : env.tolerance = env'.tolerance) {raw : Raw.Directive} (e : ElementIdx)
    (hb : ∀ b, raw.variant ≠ .balance b) {l m : List Booked.Directive} (hl : LedgerNear l m) :
    ResNear E (PlainNear l m) (s.directive env raw e l) (t.directive env' raw e m) := by
  unfold State.directive
  cases hv : raw.variant with
  | transaction a =>
    refine (h.transaction hE hd ht a raw.date e).plain ?_
    intro st v hs x hx
    obtain ⟨q, -, -, -, rfl⟩ := State.transaction_ok hs
    cases hx
  | balance b => exact absurd hv (hb b)
  | opn o =>
    refine (h.opn hE hd o e).plain ?_
    intro st v hs x hx
    obtain ⟨-, -, rfl, -⟩ := State.opn_ok hs
    cases hx
  | close c =>
    refine (h.close c e).plain ?_
    intro st v hs x hx
    have := State.close_ok hs
    simp [hx] at this
  | pad p =>
    dsimp only
    rw [hl.length_eq]
    gen_like hg : (h.pad p m.length e)
    cases hg with
    | ok h1 h2 =>
      obtain ⟨rfl, rfl⟩ := h2
      exact .ok h1 ⟨rfl, rfl, rfl, rfl, fun x hx => by cases hx⟩
    | bad h1 h2 =>
      rename_i x y
      refine .bad ?_ ?_
      · cases x with
        | ok s u => exact absurd rfl (h1 s u)
        | err s e => exact .err _ _
        | panic => exact .panic
      · cases y with
        | ok s u => exact absurd rfl (h2 s u)
        | err s e => exact .err _ _
        | panic => exact .panic
  | _ => exact .ok h ⟨rfl, rfl, rfl, rfl, fun x hx => by cases hx⟩

/-- Both runs, after the same `k` directives and without errors so far. -/
structure Lock (E : L.Pos → L.Pos → Prop) (n k : Nat) (q r : Run L) : Prop where
  state : StateNear E q.st r.st
  ledger : LedgerNear q.booked r.booked
  cleanIn : q.errors = []
  clean : r.errors = []
  inv : StInv k r.booked r.st
  held : ∀ (S : Str → Bool) (c : Str), r.st.held S c = sumUnits (fun p => S p.acc ∧ p.cur = c) r.booked
  places : HeldPlaces n q.st
  posted : ∀ p ∈ postings q.booked, p.units.s ≤ n

theorem stepIn_bad {A : Arith} {env : Env L} {k : Nat} {raw : Raw.Directive} {q : Run L}
    (h : (q.st.directiveIn A env raw { directive := k } q.booked).Bad) : ∀ q', q.stepIn A env k raw = some q' → q'.errors ≠ [] := by
  intro q' hq
  unfold Run.stepIn at hq
  cases hd : q.st.directiveIn A env raw { directive := k } q.booked with
  | ok s x => exact absurd hd (h s x)
  | err s x =>
    simp only [hd, Option.some.injEq] at hq
    subst hq
    simp
  | panic => simp [hd] at hq

theorem step_bad {env : Env L} {k : Nat} {raw : Raw.Directive} {q : Run L}
    (h : (q.st.directive env raw { directive := k } q.booked).Bad) : ∀ q', q.step env k raw = some q' → q'.errors ≠ [] := by
  intro q' hq
  unfold Run.step at hq
  cases hd : q.st.directive env raw { directive := k } q.booked with
  | ok s x => exact absurd hd (h s x)
  | err s x =>
    simp only [hd, Option.some.injEq] at hq
    subst hq
    simp
  | panic => simp [hd] at hq

theorem stepIn_unclean {A : Arith} {env : Env L} {k : Nat} {raw : Raw.Directive} {q : Run L} {s : State L} {a : Stepped}
    (h : q.st.directiveIn A env raw { directive := k } q.booked = .ok s a)
    (he : ∀ es, balanceErrorsIn A s { directive := k } a.2.2 a.1 = some es → es ≠ []) :
    ∀ q', q.stepIn A env k raw = some q' → q'.errors ≠ [] := by
  intro q' hq
  obtain ⟨v, v2, bk⟩ := a
  unfold Run.stepIn at hq
  simp only [h] at hq
  cases hb : balanceErrorsIn A s { directive := k } bk v with
  | none => simp [hb] at hq
  | some es =>
    simp only [hb, Option.some.injEq] at hq
    subst hq
    simp [he es hb]

theorem step_unclean {env : Env L} {k : Nat} {raw : Raw.Directive} {q : Run L} {s : State L} {a : Stepped}
    (h : q.st.directive env raw { directive := k } q.booked = .ok s a)
    (he : ∀ es, balanceErrors s { directive := k } a.2.2 a.1 = some es → es ≠ []) :
    ∀ q', q.step env k raw = some q' → q'.errors ≠ [] := by
  intro q' hq
  obtain ⟨v, v2, bk⟩ := a
  unfold Run.step at hq
  simp only [h] at hq
  cases hb : balanceErrors s { directive := k } bk v with
  | none => simp [hb] at hq
  | some es =>
    simp only [hb, Option.some.injEq] at hq
    subst hq
    simp [he es hb]

theorem stepIn_clean {A : Arith} {env : Env L} {k : Nat} {raw : Raw.Directive} {q : Run L} {s : State L} {v : Booked.Variant}
    {v2 : Option Booked.Variant} {bk : List Booked.Directive} (hq : q.errors = [])
    (h : q.st.directiveIn A env raw { directive := k } q.booked = .ok s (v, v2, bk))
    (he : balanceErrorsIn A s { directive := k } bk v = some []) :
    q.stepIn A env k raw = some { st := s, booked := bk ++ [mkBooked k raw v] ++ (v2.map (mkBooked k raw)).toList, errors := [] } := by
  unfold Run.stepIn
  simp [h, he, hq]

theorem step_clean {env : Env L} {k : Nat} {raw : Raw.Directive} {q : Run L} {s : State L} {v : Booked.Variant}
    {v2 : Option Booked.Variant} {bk : List Booked.Directive} (hq : q.errors = [])
    (h : q.st.directive env raw { directive := k } q.booked = .ok s (v, v2, bk))
    (he : balanceErrors s { directive := k } bk v = some []) :
    q.step env k raw = some { st := s, booked := bk ++ [mkBooked k raw v] ++ (v2.map (mkBooked k raw)).toList, errors := [] } := by
  unfold Run.step
  simp [h, he, hq]

theorem mkBooked_near (k : Nat) (raw : Raw.Directive) (v : Booked.Variant) : DirectiveNear (mkBooked k raw v) (mkBooked k raw v) :=
  ⟨rfl, rfl, rfl, rfl, rfl, VariantNear.refl _⟩

theorem tail_near (k : Nat) (raw : Raw.Directive) (v : Booked.Variant) (v2 : Option Booked.Variant) {l m : List Booked.Directive}
    (h : LedgerNear l m) : LedgerNear (l ++ [mkBooked k raw v] ++ (v2.map (mkBooked k raw)).toList)
      (m ++ [mkBooked k raw v] ++ (v2.map (mkBooked k raw)).toList) := by
  refine List.rel_append (List.rel_append h (.cons (mkBooked_near _ _ _) .nil)) ?_
  cases v2 with
  | none => exact .nil
  | some v => exact .cons (mkBooked_near _ _ _) .nil

theorem tail_sublist {l m r : List Booked.Directive} (h : (postings l).Sublist (postings m)) : (postings l).Sublist (postings (m ++ r)) := by
  rw [postings_append]
  exact h.trans (List.sublist_append_left _ _)

/-- One step of both runs: both report nothing and stay in step, or both do not go on without errors. -/
theorem Lock.step {A : Arith} (hA : A.Lawful) (hL : L.Lawful) (hE : PlacesBlind L E) (hC : CountsPlaces L) {env env' : Env L}
    (hf : env.Fair) (hf' : env'.Fair) (hd : env.defaultBooking = env'.defaultBooking) (htol : env.tolerance = env'.tolerance)
    {n k : Nat} (hn : n ≤ 28) {q r : Run L} (h : Lock E n k q r) {raw : Raw.Directive}
    (hb : ∀ b, raw.variant = .balance b → b.units.s ≤ n ∧ (turnover r.booked b.cur + |b.units.val|) * 10 ^ n < 2 ^ 96 ∧
      (b.tolerance = none → b.units.s + (env.tolerance.multiplier.getD ⟨5, 1⟩).s ≤ 28 ∧
        2 * (env.tolerance.multiplier.getD ⟨5, 1⟩).m.natAbs < 2 ^ 96)) :
    (∃ q' r', q.stepIn A env k raw = some q' ∧ r.step env' k raw = some r' ∧
      (postings q.booked).Sublist (postings q'.booked) ∧ (postings r.booked).Sublist (postings r'.booked) ∧
      q'.errors = [] ∧ r'.errors = [] ∧ LedgerNear q'.booked r'.booked ∧
      ((∀ p ∈ postings q'.booked, p.units.s ≤ n) ∨ (∀ p ∈ postings r'.booked, p.units.s ≤ n) → Lock E n (k + 1) q' r')) ∨
    ((∀ q', q.stepIn A env k raw = some q' → q'.errors ≠ []) ∧ ∀ r', r.step env' k raw = some r' → r'.errors ≠ []) := by
  -- what remains once both steps are known to be clean
  have fin : ∀ {q' r' : Run L}, r.step env' k raw = some r' → r'.errors = [] → q'.errors = [] → StateNear E q'.st r'.st →
      LedgerNear q'.booked r'.booked → HeldPlaces n q'.st → (∀ p ∈ postings q'.booked, p.units.s ≤ n) → Lock E n (k + 1) q' r' := by
    intro q' r' h1 h2 h3 h4 h5 h6 h7
    exact ⟨h4, h5, h3, h2, h.inv.step h1, fun S c => held_step hL h.inv h1 (by rw [h2, h.clean]) S c (h.held S c), h6, h7⟩
  by_cases hbal : ∃ b, raw.variant = .balance b
  · obtain ⟨b, hv⟩ := hbal
    obtain ⟨hb1, hb2, hb3⟩ := hb b hv
    have hhold := holdings_le b.cur h.inv.wfA (fun S => h.held S b.cur)
    obtain ⟨x, hx1, hx2, hx3⟩ := marginIn_exact hA hE hf hf' htol h.state hn h.places hb1
      (lt_of_le_of_lt (mul_le_mul_of_nonneg_right (by linarith) (by positivity)) hb2) hb3
    have e1 : q.st.directiveIn A env raw { directive := k } q.booked = match q.st.balanceWith x b { directive := k } q.booked with
        | .ok st' (v, booked') => .ok st' (v, none, booked')
        | .err st' x => .err st' x
        | .panic => .panic := by
      unfold State.directiveIn
      rw [hv]
      dsimp only
      unfold State.balanceIn
      rw [hx1]
      dsimp only
      cases q.st.balanceWith x b { directive := k } q.booked <;> rfl
    have e2 : r.st.directive env' raw { directive := k } r.booked =
        match r.st.balanceWith (r.st.marginOf env' b) b { directive := k } r.booked with
        | .ok st' (v, booked') => .ok st' (v, none, booked')
        | .err st' x => .err st' x
        | .panic => .panic := by
      unfold State.directive
      rw [hv]
      dsimp only
      rw [balance_with]
      cases r.st.balanceWith (r.st.marginOf env' b) b { directive := k } r.booked <;> rfl
    have hnear := h.state.balanceWith hE hx2 b { directive := k } h.ledger
    generalize hqb : q.st.balanceWith x b { directive := k } q.booked = X at hnear e1
    generalize hrb : r.st.balanceWith (r.st.marginOf env' b) b { directive := k } r.booked = Y at hnear e2
    cases hnear with
    | @ok s t a c hst hac =>
      obtain ⟨v, bk⟩ := a
      obtain ⟨v', bk'⟩ := c
      obtain ⟨hl, x, y, hx, hy, hxy⟩ := hac
      dsimp only at hx hy hl e1 e2
      subst hx hy
      rcases hxy with ⟨rfl, hm⟩ | ⟨hm1, hm2⟩
      · cases hu : x.unusedPad with
        | none =>
          left
          have g1 := stepIn_clean h.cleanIn e1 (by simp [balanceErrorsIn, hm, hu])
          have g2 := step_clean h.clean e2 (by simp [balanceErrors, hm, hu])
          refine ⟨_, _, g1, g2, ?_, ?_, rfl, rfl, tail_near _ _ _ none hl, fun _ => ?_⟩
          · dsimp only
            rw [List.append_assoc]
            exact tail_sublist (balanceWith_sublist (PadsEmpty.near h.state h.ledger h.inv.padsEmpty) hqb)
          · dsimp only
            rw [List.append_assoc]
            exact tail_sublist (balanceWith_sublist h.inv.padsEmpty hrb)
          · refine fin g2 rfl rfl hst (tail_near _ _ _ none hl) (balanceWith_places hC h.places hx3 hqb) ?_
            intro p hp
            simp only [postings_append, List.mem_append, Option.map_none, Option.toList_none] at hp
            rcases hp with (hp | hp) | hp
            · exact balanceWith_posted h.posted hx3 hqb p hp
            · simp [postings, mkBooked, postingsOf] at hp
            · simp [postings] at hp
        | some p =>
          right
          refine ⟨stepIn_unclean e1 ?_, step_unclean e2 ?_⟩
          · intro es hes
            simp only [balanceErrorsIn, hm, hu, Option.some.injEq] at hes
            simp [← hes]
          · intro es hes
            simp only [balanceErrors, hm, hu, Option.some.injEq] at hes
            simp [← hes]
      · right
        refine ⟨stepIn_unclean e1 ?_, step_unclean e2 ?_⟩
        · intro es hes
          obtain ⟨m, hm⟩ := Option.isSome_iff_exists.1 hm1
          simp only [balanceErrorsIn, hm] at hes
          split at hes
          · simp only [Option.some.injEq] at hes
            simp [← hes]
          · cases hes
        · intro es hes
          obtain ⟨m, hm⟩ := Option.isSome_iff_exists.1 hm2
          simp only [balanceErrors, hm] at hes
          split at hes
          · simp only [Option.some.injEq] at hes
            simp [← hes]
          · cases hes
    | bad h1 h2 =>
      right
      refine ⟨stepIn_bad ?_, step_bad ?_⟩
      · rw [e1]
        cases X with
        | ok s u => exact absurd rfl (h1 s u)
        | err s e => exact .err _ _
        | panic => exact .panic
      · rw [e2]
        cases Y with
        | ok s u => exact absurd rfl (h2 s u)
        | err s e => exact .err _ _
        | panic => exact .panic
  · have hnb : ∀ b, raw.variant ≠ .balance b := fun b hv => hbal ⟨b, hv⟩
    have e1 : q.st.directiveIn A env raw { directive := k } q.booked = q.st.directive env raw { directive := k } q.booked := by
      unfold State.directiveIn
      split
      · rename_i b hv
        exact absurd hv (hnb b)
      · rfl
    have hnear := h.state.directive hE hd htol { directive := k } hnb h.ledger
    generalize hqb : q.st.directive env raw { directive := k } q.booked = X at hnear e1
    generalize hrb : r.st.directive env' raw { directive := k } r.booked = Y at hnear
    cases hnear with
    | @ok s t a c hst hac =>
      obtain ⟨v, v2, bk⟩ := a
      obtain ⟨v', v2', bk'⟩ := c
      obtain ⟨h1, h2, h3, h4, h5⟩ := hac
      dsimp only at h1 h2 h3 h4 h5
      subst h1 h2 h3 h4
      left
      have g1 := stepIn_clean h.cleanIn e1 (by
        cases v with
        | balance x => exact absurd rfl (h5 x)
        | _ => rfl)
      have g2 := step_clean h.clean hrb (by
        cases v with
        | balance x => exact absurd rfl (h5 x)
        | _ => rfl)
      refine ⟨_, _, g1, g2, ?_, ?_, rfl, rfl, tail_near _ _ _ v2 h.ledger, fun hpl => ?_⟩
      · dsimp only
        rw [List.append_assoc]
        exact tail_sublist (List.Sublist.refl _)
      · dsimp only
        rw [List.append_assoc]
        exact tail_sublist (List.Sublist.refl _)
      · refine fin g2 rfl rfl hst (tail_near _ _ _ v2 h.ledger) ?_ ?_
        swap
        · intro p hp
          rcases hpl with hpl | hpl
          · exact hpl p hp
          · dsimp only at hp hpl
            rw [List.append_assoc, postings_append, List.mem_append] at hp
            rcases hp with hp | hp
            · exact h.posted p hp
            · refine hpl p ?_
              rw [List.append_assoc, postings_append, List.mem_append]
              exact .inr hp
        refine directive_places (m := k) hL hC hnb h.places hqb ?_
        intro p hp
        have hmem : ∀ l, p ∈ postings (l ++ [mkBooked k raw v] ++ (v2.map (mkBooked k raw)).toList) := by
          intro l
          rw [postings_append, postings_append]
          simp only [List.mem_append]
          exact .inl (.inr (by simpa [postings] using hp))
        rcases hpl with hpl | hpl
        · exact hpl p (hmem _)
        · exact hpl p (hmem _)
    | bad h1 h2 =>
      right
      refine ⟨stepIn_bad (by rw [e1]; exact h1), step_bad (by rw [hrb]; exact h2)⟩

/-! ### Ledgers only grow -/

theorem balanceWith_err {st st' : State L} {x : Option Dec} {b : Raw.Balance} {e : ElementIdx} {bk : List Booked.Directive} {y : IndexedReport}
    (h : st.balanceWith x b e bk = .err st' y) : st' = st := by
  unfold State.balanceWith at h
  cases hg : st.getValidAccount b.acc e with
  | err x => simp only [hg, Res.err.injEq] at h; exact h.1.symm
  | panic => simp [hg] at h
  | ok a =>
    simp only [hg] at h
    cases hc : a.validateCurrency b.cur e with
    | some x => simp only [hc, Res.err.injEq] at h; exact h.1.symm
    | none =>
      simp only [hc] at h
      cases x with
      | none => simp at h
      | some m =>
        cases hp : a.pad with
        | none => simp [hp] at h
        | some q =>
          simp only [hp] at h
          exact absurd h State.fillPad_ne_err

theorem StInv.balanceWith {n : Nat} {bk bk' : List Booked.Directive} {st st' : State L} (h : StInv n bk st) {x : Option Dec}
    {b : Raw.Balance} {e : ElementIdx} {v : Booked.Variant} (hb : st.balanceWith x b e bk = .ok st' (v, bk')) :
    StInv n bk' st' := by
  obtain ⟨a, ha, hcase⟩ := balanceWith_ok hb
  have hw := h.advance ha
  rcases hcase with ⟨-, rfl, rfl⟩ | ⟨m, -, rfl, rfl⟩ | ⟨m, i, e0, -, hp, hf⟩
  · exact h.setAccount ha rfl (by simp [Account.advance]) hw
  · exact h.setAccount ha rfl (by simp [Account.advance, Account.adjustAdd]) hw
  · have hr : StInv n bk (st.resetTo b a m bk.length) :=
      h.setAccount ha rfl (by simp [Account.advance, Account.adjustAdd]) hw
    obtain ⟨d, p, d2, t, src, h1, h2, h3, h4, rfl, h6, rfl, -⟩ := State.fillPad_ok hf
    have hpad := h.pad _ _ _ _ ha hp
    have hr2 := hr.fill hpad (by
      intro x hx
      simp only [State.resetTo, State.setAccount, AMap.get_set, if_true, Option.some.injEq] at hx
      subst hx
      rfl) h3 t (calculateBalancePadPostings b.cur m b.acc p.source)
    exact hr2.sameMeta (SameMeta.setAccount h6 ⟨rfl, rfl, rfl, rfl, rfl⟩)

theorem stepIn_eq {A : Arith} {env : Env L} {k : Nat} {raw : Raw.Directive} (hb : ∀ b, raw.variant ≠ .balance b) (q : Run L) :
    q.stepIn A env k raw = q.step env k raw := by
  have e1 : q.st.directiveIn A env raw { directive := k } q.booked = q.st.directive env raw { directive := k } q.booked := by
    unfold State.directiveIn
    split
    · rename_i b hv
      exact absurd hv (hb b)
    · rfl
  unfold Run.stepIn Run.step
  dsimp only
  rw [e1]
  cases hd : q.st.directive env raw { directive := k } q.booked with
  | err s x => rfl
  | panic => rfl
  | ok s a =>
    obtain ⟨v, v2, bk⟩ := a
    have hv : ∀ x, v ≠ .balance x := by
      rintro x rfl
      rcases State.directive_ok hd with ⟨t, -, ht, rfl, rfl⟩ | ⟨b, hb', -⟩ | ⟨o, -, ho, rfl, rfl⟩ |
        ⟨c, -, hc, rfl, rfl⟩ | ⟨p, v', -, hp, rfl, rfl⟩ | ⟨hp, rfl, rfl, rfl⟩
      · obtain ⟨q, -, -, -, h⟩ := State.transaction_ok ht
        cases h
      · exact hb b hb'
      · simpa using (State.opn_ok ho).2.2.1
      · simpa using (State.close_ok hc).2.2.1
      · obtain ⟨a, -, ha, hpn, h1, h2, h3⟩ := State.pad_ok hp
        cases h2
      · cases hr : raw.variant <;> simp [hr, plainVariant] at hp
    dsimp only
    cases v with
    | balance x => exact absurd rfl (hv x)
    | _ => rfl

theorem step_sublist {env : Env L} {k : Nat} {raw : Raw.Directive} {r r' : Run L} (hi : StInv k r.booked r.st)
    (h : r.step env k raw = some r') : (postings r.booked).Sublist (postings r'.booked) := by
  rcases Run.step_some h with ⟨st', x, hd, rfl⟩ | ⟨st', v, v2, bk, errs, hd, -, rfl⟩
  · exact List.Sublist.refl _
  · dsimp only
    rw [List.append_assoc]
    refine tail_sublist ?_
    rcases State.directive_ok hd with ⟨t, -, ht, rfl, rfl⟩ | ⟨b, -, hb, rfl⟩ | ⟨o, -, ho, rfl, rfl⟩ |
      ⟨c, -, hc, rfl, rfl⟩ | ⟨p, v', -, hp, rfl, rfl⟩ | ⟨-, rfl, rfl, rfl⟩
    · exact List.Sublist.refl _
    · rw [balance_with] at hb
      exact balanceWith_sublist hi.padsEmpty hb
    · exact List.Sublist.refl _
    · exact List.Sublist.refl _
    · exact List.Sublist.refl _
    · exact List.Sublist.refl _

/-- Kept by both kinds of steps: the invariant, that no posting goes away, and that no error goes away. -/
theorem stepIn_grows {A : Arith} {env : Env L} {k : Nat} {raw : Raw.Directive} {q q' : Run L} (hi : StInv k q.booked q.st)
    (h : q.stepIn A env k raw = some q') :
    StInv (k + 1) q'.booked q'.st ∧ (postings q.booked).Sublist (postings q'.booked) ∧ (q'.errors = [] → q.errors = []) := by
  by_cases hbal : ∃ b, raw.variant = .balance b
  · obtain ⟨b, hv⟩ := hbal
    unfold Run.stepIn State.directiveIn State.balanceIn at h
    simp only [hv] at h
    cases hm : q.st.marginIn A env b with
    | none => simp [hm] at h
    | some x =>
      simp only [hm] at h
      cases hw : q.st.balanceWith x b { directive := k } q.booked with
      | panic => simp [hw] at h
      | err s y =>
        simp only [hw, Option.some.injEq] at h
        subst h
        rw [balanceWith_err hw]
        exact ⟨hi.mono' (Nat.le_succ k), List.Sublist.refl _, by simp⟩
      | ok s a =>
        obtain ⟨v, bk⟩ := a
        simp only [hw] at h
        cases he : balanceErrorsIn A s { directive := k } bk v with
        | none => simp [he] at h
        | some es =>
          simp only [he, Option.some.injEq] at h
          subst h
          refine ⟨?_, ?_, ?_⟩
          · simpa using (hi.balanceWith hw).mono (Nat.le_succ k) [mkBooked k raw v] (by simp [mkBooked])
          · dsimp only
            rw [List.append_assoc]
            exact tail_sublist (balanceWith_sublist hi.padsEmpty hw)
          · intro h
            exact (List.append_eq_nil_iff.1 h).1
  · rw [stepIn_eq (fun b hv => hbal ⟨b, hv⟩)] at h
    refine ⟨hi.step h, step_sublist hi h, ?_⟩
    intro h0
    obtain ⟨es, hes⟩ := step_errors h
    rw [h0] at hes
    exact (List.append_eq_nil_iff.1 hes.symm).1

theorem loopIn_grows {A : Arith} {env : Env L} : ∀ {ds : List Raw.Directive} {k : Nat} {q q' : Run L}, StInv k q.booked q.st →
    Run.loopIn A env k ds q = some q' → (postings q.booked).Sublist (postings q'.booked) ∧ (q'.errors = [] → q.errors = [])
  | [], k, q, q', _, h => by
    cases h
    exact ⟨List.Sublist.refl _, id⟩
  | raw :: ds, k, q, q', hi, h => by
    unfold Run.loopIn at h
    cases hs : q.stepIn A env k raw with
    | none => simp [hs] at h
    | some p =>
      simp only [hs] at h
      obtain ⟨g1, g2, g3⟩ := stepIn_grows hi hs
      obtain ⟨f1, f2⟩ := loopIn_grows g1 h
      exact ⟨g2.trans f1, fun h => g3 (f2 h)⟩

theorem loop_grows {env : Env L} : ∀ {ds : List Raw.Directive} {k : Nat} {q q' : Run L}, StInv k q.booked q.st →
    Run.loop env k ds q = some q' → (postings q.booked).Sublist (postings q'.booked) ∧ (q'.errors = [] → q.errors = [])
  | [], k, q, q', _, h => by
    cases h
    exact ⟨List.Sublist.refl _, id⟩
  | raw :: ds, k, q, q', hi, h => by
    unfold Run.loop at h
    cases hs : q.step env k raw with
    | none => simp [hs] at h
    | some p =>
      simp only [hs] at h
      obtain ⟨f1, f2⟩ := loop_grows (hi.step hs) h
      refine ⟨(step_sublist hi hs).trans f1, fun h => ?_⟩
      obtain ⟨es, hes⟩ := step_errors hs
      rw [f2 h] at hes
      exact (List.append_eq_nil_iff.1 hes.symm).1

theorem turnover_mono {l m : List Booked.Directive} (h : (postings l).Sublist (postings m)) (c : Str) : turnover l c ≤ turnover m c := by
  unfold turnover
  refine ((h.filter _).map _).sum_le_sum ?_
  intro x hx
  obtain ⟨p, -, rfl⟩ := List.mem_map.1 hx
  exact abs_nonneg _

/-! ### All steps -/

/-- What is asked of the assertions among given directives, for a ledger. -/
def Asserted (n : Nat) (multiplier : Option Dec) (ds : List Raw.Directive) (ledger : List Booked.Directive) : Prop :=
  ∀ d ∈ ds, ∀ b, d.variant = .balance b → b.units.s ≤ n ∧ (turnover ledger b.cur + |b.units.val|) * 10 ^ n < 2 ^ 96 ∧
    (b.tolerance = none → b.units.s + (multiplier.getD ⟨5, 1⟩).s ≤ 28 ∧ 2 * (multiplier.getD ⟨5, 1⟩).m.natAbs < 2 ^ 96)

theorem asserted_here {n : Nat} {mu : Option Dec} {raw : Raw.Directive} {ds : List Raw.Directive} {l m : List Booked.Directive}
    (h : Asserted n mu (raw :: ds) m) (hs : (postings l).Sublist (postings m)) (b : Raw.Balance) (hb : raw.variant = .balance b) :
    b.units.s ≤ n ∧ (turnover l b.cur + |b.units.val|) * 10 ^ n < 2 ^ 96 ∧
    (b.tolerance = none → b.units.s + (mu.getD ⟨5, 1⟩).s ≤ 28 ∧ 2 * (mu.getD ⟨5, 1⟩).m.natAbs < 2 ^ 96) := by
  obtain ⟨h1, h2, h3⟩ := h raw (by simp) b hb
  have := turnover_mono hs b.cur
  exact ⟨h1, lt_of_le_of_lt (mul_le_mul_of_nonneg_right (by linarith) (by positivity)) h2, h3⟩

theorem Lock.loop_of_exact {A : Arith} (hA : A.Lawful) (hL : L.Lawful) (hE : PlacesBlind L E) (hC : CountsPlaces L) {env env' : Env L}
    (hf : env.Fair) (hf' : env'.Fair) (hd : env.defaultBooking = env'.defaultBooking) (htol : env.tolerance = env'.tolerance)
    {n : Nat} (hn : n ≤ 28) {rf : Run L} (he : rf.errors = []) (hp : ∀ p ∈ postings rf.booked, p.units.s ≤ n) :
    ∀ {ds : List Raw.Directive} {k : Nat} {q r : Run L}, Lock E n k q r → Asserted n env.tolerance.multiplier ds rf.booked →
      Run.loop env' k ds r = some rf → ∃ qf, Run.loopIn A env k ds q = some qf ∧ Lock E n (k + ds.length) qf rf
  | [], k, q, r, h, _, hl => by
    cases hl
    exact ⟨q, rfl, h⟩
  | raw :: ds, k, q, r, h, ha, hl => by
    have hg := loop_grows h.inv hl
    unfold Run.loop at hl
    cases hs : r.step env' k raw with
    | none => simp [hs] at hl
    | some r1 =>
      simp only [hs] at hl
      have hg1 := loop_grows (h.inv.step hs) hl
      rcases h.step hA hL hE hC hf hf' hd htol hn (asserted_here ha hg.1) with ⟨q', r', h1, h2, -, -, -, -, -, h8⟩ | ⟨-, h2⟩
      · rw [hs] at h2
        cases h2
        obtain ⟨qf, f1, f2⟩ := Lock.loop_of_exact hA hL hE hC hf hf' hd htol hn he hp
          (h8 (.inr fun p hpm => hp p (hg1.1.mem hpm))) (fun d hdm => ha d (List.mem_cons_of_mem _ hdm)) hl
        refine ⟨qf, ?_, ?_⟩
        · unfold Run.loopIn
          simp only [h1]
          exact f1
        · rw [List.length_cons, ← add_assoc, add_right_comm]
          exact f2
      · exact absurd (hg1.2 he) (h2 r1 hs)

theorem Lock.loop_of_bounded {A : Arith} (hA : A.Lawful) (hL : L.Lawful) (hE : PlacesBlind L E) (hC : CountsPlaces L) {env env' : Env L}
    (hf : env.Fair) (hf' : env'.Fair) (hd : env.defaultBooking = env'.defaultBooking) (htol : env.tolerance = env'.tolerance)
    {n : Nat} (hn : n ≤ 28) {qf : Run L} (he : qf.errors = []) (hp : ∀ p ∈ postings qf.booked, p.units.s ≤ n) :
    ∀ {ds : List Raw.Directive} {k : Nat} {q r : Run L}, Lock E n k q r → StInv k q.booked q.st →
      Asserted n env.tolerance.multiplier ds qf.booked →
      Run.loopIn A env k ds q = some qf → ∃ rf, Run.loop env' k ds r = some rf ∧ Lock E n (k + ds.length) qf rf
  | [], k, q, r, h, _, _, hl => by
    cases hl
    exact ⟨r, rfl, h⟩
  | raw :: ds, k, q, r, h, hi, ha, hl => by
    have hg := loopIn_grows hi hl
    unfold Run.loopIn at hl
    cases hs : q.stepIn A env k raw with
    | none => simp [hs] at hl
    | some q1 =>
      simp only [hs] at hl
      obtain ⟨hi1, -, -⟩ := stepIn_grows hi hs
      have hg1 := loopIn_grows hi1 hl
      have hb : ∀ b, raw.variant = .balance b → b.units.s ≤ n ∧ (turnover r.booked b.cur + |b.units.val|) * 10 ^ n < 2 ^ 96 ∧
          (b.tolerance = none → b.units.s + (env.tolerance.multiplier.getD ⟨5, 1⟩).s ≤ 28 ∧
            2 * (env.tolerance.multiplier.getD ⟨5, 1⟩).m.natAbs < 2 ^ 96) := by
        intro b hb
        rw [← turnover_near h.ledger]
        exact asserted_here ha hg.1 b hb
      rcases h.step hA hL hE hC hf hf' hd htol hn hb with ⟨q', r', h1, h2, -, -, -, -, -, h8⟩ | ⟨h2, -⟩
      · rw [hs] at h1
        cases h1
        obtain ⟨rf, f1, f2⟩ := Lock.loop_of_bounded hA hL hE hC hf hf' hd htol hn he hp
          (h8 (.inl fun p hpm => hp p (hg1.1.mem hpm))) hi1 (fun d hdm => ha d (List.mem_cons_of_mem _ hdm)) hl
        refine ⟨rf, ?_, ?_⟩
        · unfold Run.loop
          simp only [h2]
          exact f1
        · rw [List.length_cons, ← add_assoc, add_right_comm]
          exact f2
      · exact absurd (hg1.2 he) (h2 q1 hs)

theorem Lock.init (E : L.Pos → L.Pos → Prop) (n : Nat) : Lock E n 0 ({} : Run L) {} where
  state := ⟨rfl, rfl, rfl, .nil⟩
  ledger := .nil
  cleanIn := rfl
  clean := rfl
  inv := StInv.init
  held := fun S c => by simp [held_init, sumUnits_nil]
  places := fun ka hka => by cases hka
  posted := fun p hp => by cases hp

theorem collectIn_success {A : Arith} {env : Env L} {ds : List Raw.Directive} {out : List Booked.Directive}
    {w : List IndexedReport} : collectIn A env ds = .success out w ↔
    ∃ r, Run.loopIn A env 0 ds {} = some r ∧ r.errors = [] ∧ r.st.leftOverPads env = [] ∧ r.booked = out ∧ r.st.warnings = w := by
  unfold collectIn
  cases hl : Run.loopIn A env 0 ds {} with
  | none => simp
  | some r =>
    simp only [Run.validate, Option.some.injEq]
    constructor
    · intro h
      split at h
      · rename_i hemp
        simp only [List.isEmpty_iff, List.append_eq_nil_iff] at hemp
        simp only [Outcome.success.injEq] at h
        exact ⟨r, rfl, hemp.1, hemp.2, h.1, h.2⟩
      · cases h
    · rintro ⟨_, rfl, h1, h2, rfl, rfl⟩
      simp [h1, h2]

theorem collect_success_iff {env : Env L} {ds : List Raw.Directive} {out : List Booked.Directive}
    {w : List IndexedReport} : collect env ds = .success out w ↔
    ∃ r, Run.loop env 0 ds {} = some r ∧ r.errors = [] ∧ r.st.leftOverPads env = [] ∧ r.booked = out ∧ r.st.warnings = w := by
  refine ⟨collect_success, ?_⟩
  rintro ⟨r, h0, h1, h2, rfl, rfl⟩
  simp [collect, h0, Run.validate, h1, h2]

theorem like_pads {m n : AMap Str (Account L)} (h : AMap.Like (AccountNear E) m n) :
    (∀ ka ∈ m, ka.2.pad = none) ↔ ∀ ka ∈ n, ka.2.pad = none := by
  induction h with
  | nil => simp
  | cons hpq _ ih => simp only [List.forall_mem_cons, ih, hpq.2.pad]

theorem Lock.pads {n k : Nat} {q r : Run L} (h : Lock E n k q r) {env env' : Env L} (hf : env.Fair) (hf' : env'.Fair) :
    q.st.leftOverPads env = [] ↔ r.st.leftOverPads env' = [] := by
  rw [leftOverPads_nil hf, leftOverPads_nil hf', like_pads h.state.accounts]

end Limabean
