/-
The accumulator accepts exactly the ledgers which the reference semantics accepts.
-/
import Verif.Spec.Reference
import Verif.Proofs.Life

namespace Limabean

open Spec

variable {L : BookLib}

/-- The source of the pad booked at a position. -/
def padSource (bk : List Booked.Directive) (i : Nat) : Option Str :=
  match bk[i]? with
  | some d => match d.variant with
    | .pad p => some p.source
    | _ => none
  | none => none

/-- The source of the pending pad of an account. -/
def pendingOf (bk : List Booked.Directive) (st : State L) (a : Str) : Option Str :=
  (st.accounts.get a).bind fun x => x.pad.bind fun ie => padSource bk ie.1

theorem padSource_append {bk : List Booked.Directive} {i : Nat} (h : i < bk.length) (x : List Booked.Directive) :
    padSource (bk ++ x) i = padSource bk i := by
  unfold padSource
  rw [List.getElem?_append_left h]

theorem PadAt.lt {bk : List Booked.Directive} {a : Str} {i : Nat} {e : ElementIdx} (h : PadAt bk a i e) :
    i < bk.length := by
  obtain ⟨d, p, d2, t, h1, -⟩ := h
  exact (List.getElem?_eq_some_iff.1 h1).1

theorem pendingOf_append {n : Nat} {bk : List Booked.Directive} {st : State L} (h : StInv n bk st)
    (x : List Booked.Directive) : pendingOf (bk ++ x) st = pendingOf bk st := by
  funext a
  unfold pendingOf
  cases ha : st.accounts.get a with
  | none => rfl
  | some y =>
    cases hp : y.pad with
    | none => simp [hp]
    | some ie => simp [hp, padSource_append (h.pad a y ie.1 ie.2 ha hp).lt]

theorem pendingOf_sameMeta {bk : List Booked.Directive} {st st' : State L} (h : SameMeta st st') :
    pendingOf bk st' = pendingOf bk st := by
  funext a
  unfold pendingOf
  cases ha : st.accounts.get a with
  | none =>
    have : st'.accounts.get a = none := h.sameOpen.none_ a ha
    simp [this]
  | some y =>
    obtain ⟨y', hy', hs⟩ := h.forward ha
    simp [hy', hs.pad]

theorem pendingOf_setAccount {bk : List Booked.Directive} {st : State L} {k : Str} {a' : Account L} :
    pendingOf bk (st.setAccount k a') =
      Function.update (pendingOf bk st) k (a'.pad.bind fun ie => padSource bk ie.1) := by
  funext a
  unfold pendingOf
  by_cases h : k = a
  · subst h; simp [State.setAccount, AMap.get_set]
  · have h' : a ≠ k := fun e => h e.symm
    simp [State.setAccount, AMap.get_set, h, h']

/-- The states correspond. -/
structure Rel (r : Run L) (s : Ref L) : Prop where
  names : AMap.keys r.st.accounts = s.names
  held : r.st.inventory = s.held
  pending : pendingOf r.booked r.st = s.pending
  errors : r.errors = []

/-- What is known of a run without reports. -/
structure Good (env : Env L) (pre : List Raw.Directive) (r : Run L) : Prop where
  inv : StInv pre.length r.booked r.st
  life : LifeInv env pre r.st
  reopened : ∀ a, ¬ Reopened pre a

theorem Good.step {env : Env L} {pre : List Raw.Directive} {raw : Raw.Directive} {r r' : Run L} (h : Good env pre r)
    (hs : r.step env pre.length raw = some r') (he : r'.errors = []) : Good env (pre ++ [raw]) r' := by
  refine ⟨by simpa using h.inv.step hs, h.life.step h.inv hs, ?_⟩
  intro a
  obtain ⟨h0, st', v, v2, bk, hd, -, rfl⟩ := errors_nil_of_step hs he
  rw [Reopened.snoc_iff]
  rintro (h1 | ⟨o, o', hv, rfl, hl⟩)
  · exact h.reopened a h1
  · unfold State.directive at hd
    simp only [hv] at hd
    cases ho : r.st.opn env o { directive := pre.length } with
    | panic => simp [ho, Res.plain] at hd
    | err s x => simp [ho, Res.plain] at hd
    | ok s v =>
      obtain ⟨-, h2, -⟩ := State.opn_ok ho
      obtain ⟨-, ⟨e, he⟩, -⟩ := h.life.closed _ _ hl
      simp [h2] at he

theorem Good.opened {env : Env L} {pre : List Raw.Directive} {r : Run L} (h : Good env pre r) (a : Str) :
    r.st.opened.has a = isOpen pre a := by
  rw [Bool.eq_iff_iff, h.life.opened_iff]
  unfold isOpen IsOpen
  have := h.reopened a
  cases Spec.life pre a <;> simp [this]

theorem Good.usable_iff {env : Env L} {pre : List Raw.Directive} {r : Run L} (h : Good env pre r) (a c : Str) :
    usable pre a c = true ↔ ∃ x, r.st.opened.has a = true ∧ r.st.accounts.get a = some x ∧ x.isCurrencyValid c = true := by
  rw [h.opened]
  unfold usable isOpen
  cases hl : Spec.life pre a with
  | never => simp
  | closed o => simp
  | opn o =>
    obtain ⟨-, -, -, x, hx, hf⟩ := h.life.opn a o hl
    simp only [hx, Option.some.injEq, true_and, exists_eq_left', Account.isCurrencyValid, hf.allowed]

theorem Good.validate {env : Env L} {pre : List Raw.Directive} {r : Run L} (h : Good env pre r) (a c : Str)
    (e : ElementIdx) : r.st.validateAccountAndCurrency a c e = .ok () ↔ usable pre a c = true := by
  rw [h.usable_iff]
  unfold State.validateAccountAndCurrency
  constructor
  · intro hv
    cases hg : r.st.getValidAccount a e with
    | err x => simp [hg] at hv
    | panic => simp [hg] at hv
    | ok x =>
      simp only [hg] at hv
      rw [State.getValidAccount_ok] at hg
      cases hc : x.validateCurrency c e with
      | some y => simp [hc] at hv
      | none => exact ⟨x, hg.1, hg.2, Account.validateCurrency_none.1 hc⟩
  · rintro ⟨x, h1, h2, h3⟩
    rw [(State.getValidAccount_ok (e := e)).2 ⟨h1, h2⟩]
    simp [Account.validateCurrency_none.2 h3]

theorem Good.firstPostingError {env : Env L} {pre : List Raw.Directive} {r : Run L} (h : Good env pre r)
    (e : ElementIdx) (i : Nat) (zs : List (Interpolated × Raw.PostingSpec)) :
    r.st.firstPostingError e i zs = .ok () ↔ (zs.all fun ip => usable pre ip.2.acc ip.1.currency) = true := by
  induction zs generalizing i with
  | nil => simp [State.firstPostingError]
  | cons z zs ih =>
    obtain ⟨ip, p⟩ := z
    simp only [State.firstPostingError, List.all_cons, Bool.and_eq_true]
    rw [← h.validate p.acc ip.currency { directive := e.directive, posting := some i }, ← ih (i + 1)]
    cases r.st.validateAccountAndCurrency p.acc ip.currency { directive := e.directive, posting := some i } <;> simp

theorem methodAt_eq {order : AMap Str (Account L) → AMap Str (Account L)} {o : BookOptions} (hd : L.supported L.dflt = true)
    {pre : List Raw.Directive} {st : State L} (h : LifeInv (envOf L o order) pre st) :
    st.bookingFor (envOf L o order) = methodAt L o.bookingMethod pre := by
  have key : ∀ op : Raw.Open, (if L.supported (op.booking.getD (defaultBooking L o)) then
      op.booking.getD (defaultBooking L o) else L.dflt) = method L o.bookingMethod op := by
    intro op
    unfold method defaultBooking
    cases op.booking with
    | some b => simp
    | none =>
      cases o.bookingMethod with
      | none => simp [hd]
      | some b => by_cases hb : L.supported b = true <;> simp [hb, hd]
  funext a
  unfold State.bookingFor methodAt
  cases hl : Spec.life pre a with
  | never =>
    rw [(h.never a hl).2.2]
    simp only [Option.map_none, Option.getD_none, method, envOf, defaultBooking]
    cases o.bookingMethod with
    | none => rfl
    | some b => rfl
  | opn op =>
    obtain ⟨-, -, -, x, hx, hf⟩ := h.opn a op hl
    simp only [hx, Option.map_some, Option.getD_some, hf.booking]
    exact key op
  | closed op =>
    obtain ⟨-, -, x, hx, hf⟩ := h.closed a op hl
    simp only [hx, Option.map_some, Option.getD_some, hf.booking]
    exact key op

theorem State.inventory_setAccount {st : State L} {k : Str} {a' : Account L} :
    (st.setAccount k a').inventory = Function.update st.inventory k (some a'.positions) := by
  funext a
  unfold State.inventory
  by_cases h : k = a
  · subst h; simp [State.setAccount, AMap.get_set]
  · have h' : a ≠ k := fun e => h e.symm
    simp [State.setAccount, AMap.get_set, h, h']

theorem State.installInventory_inventory {e : ElementIdx} {us : List (Str × L.Pos)} {st st' : State L}
    (h : State.installInventory e st us = .ok st' ()) :
    st'.inventory = us.foldl (fun (h : Str → Option L.Pos) aq => Function.update h aq.1 (some aq.2)) st.inventory := by
  induction us generalizing st with
  | nil =>
    simp only [State.installInventory, Res.ok.injEq, and_true] at h
    subst h; rfl
  | cons u us ih =>
    obtain ⟨acc, pos⟩ := u
    simp only [State.installInventory] at h
    cases hg : st.getValidAccount acc e with
    | err x => simp [hg] at h
    | panic => simp [hg] at h
    | ok a =>
      simp only [hg] at h
      rw [ih h, State.inventory_setAccount]
      rfl

/-- Installing succeeds when all the accounts are open. -/
theorem State.installInventory_total {e : ElementIdx} {us : List (Str × L.Pos)} {st : State L}
    (ho : ∀ aq ∈ us, st.opened.has aq.1 = true ∧ ∃ x, st.accounts.get aq.1 = some x) :
    ∃ st', State.installInventory e st us = .ok st' () := by
  induction us generalizing st with
  | nil => exact ⟨st, rfl⟩
  | cons u us ih =>
    obtain ⟨acc, pos⟩ := u
    obtain ⟨h1, x, h2⟩ := ho (acc, pos) (by simp)
    simp only [State.installInventory, (State.getValidAccount_ok (e := e)).2 ⟨h1, h2⟩]
    apply ih
    intro aq haq
    obtain ⟨h3, y, h4⟩ := ho aq (List.mem_cons_of_mem _ haq)
    refine ⟨h3, ?_⟩
    by_cases hk : acc = aq.1
    · exact ⟨_, by simp [State.setAccount, AMap.get_set, hk]; rfl⟩
    · exact ⟨y, by simpa [State.setAccount, AMap.get_set, hk] using h4⟩

theorem total_eq {env : Env L} (hf : env.Fair) {r : Run L} {s : Ref L} (hr : Rel r s) (hw : AMap.WF r.st.accounts)
    (acc cur : Str) : r.st.totalRollupUnits env acc cur = s.total acc cur := by
  unfold State.totalRollupUnits Ref.total
  rw [Dec.sum_perm ((hf r.st.accounts).filter _ |>.map _)]
  congr 1
  rw [← hr.names, ← hr.held]
  have : ∀ (m m' : AMap Str (Account L)), (∀ ka ∈ m, m'.get ka.1 = some ka.2) →
      (m.filter fun ca => isNonstrictSubaccount acc ca.1).map (fun ca => L.units ca.2.positions cur) =
      ((AMap.keys m).filter fun a => Below acc a).map fun a =>
        L.units (((m'.get a).map fun x => x.positions).getD L.empty) cur := by
    intro m m' hm
    induction m with
    | nil => simp [AMap.keys]
    | cons ka m ih =>
      have ih := ih (fun kb hkb => hm kb (List.mem_cons_of_mem _ hkb))
      have hka := hm ka (by simp)
      simp only [AMap.keys, List.map_cons, List.filter_cons, sub_eq_decide] at ih ⊢
      split
      · simp only [List.map_cons, hka, Option.map_some, Option.getD_some, ih]
      · exact ih
  exact this _ _ (fun ka hka => AMap.get_of_mem hw hka)

theorem toleranceDec_eq {env : Env L} {o : BookOptions} (he : env.tolerance = o.tolerance) (b : Raw.Balance) :
    effectiveTolerance env b = toleranceDec o.tolerance.multiplier b := by
  unfold effectiveTolerance toleranceDec
  rw [he]
  cases b.tolerance with
  | some t => rfl
  | none =>
    by_cases h : b.units.s = 0
    · simp [h, Dec.zero]
    · simp [h, Nat.pos_of_ne_zero h, Dec.two]

theorem marginOf_eq {env : Env L} (hf : env.Fair) {o : BookOptions} (he : env.tolerance = o.tolerance) {r : Run L}
    {s : Ref L} (hr : Rel r s) (hw : AMap.WF r.st.accounts) (b : Raw.Balance) :
    r.st.marginOf env b = if (b.units.sub (s.total b.acc b.cur)).abs.gt (toleranceDec o.tolerance.multiplier b) then
      some (b.units.sub (s.total b.acc b.cur)) else none := by
  unfold State.marginOf calculateBalanceMargin
  rw [total_eq hf hr hw, toleranceDec_eq he]

theorem PadAt.source {bk : List Booked.Directive} {a : Str} {i : Nat} {e : ElementIdx} (h : PadAt bk a i e) :
    ∃ d p, bk[i]? = some d ∧ d.variant = .pad p ∧ padSource bk i = some p.source := by
  obtain ⟨d, p, d2, t, h1, h2, -⟩ := h
  exact ⟨d, p, h1, h2, by simp [padSource, h1, h2]⟩

theorem Good.pending_none {env : Env L} {pre : List Raw.Directive} {r : Run L} (h : Good env pre r) {a : Str}
    {x : Account L} (hx : r.st.accounts.get a = some x) : pendingOf r.booked r.st a = none ↔ x.pad = none := by
  unfold pendingOf
  simp only [hx, Option.bind_some]
  cases hp : x.pad with
  | none => simp
  | some ie =>
    obtain ⟨d, p, -, -, h3⟩ := (h.inv.pad a x ie.1 ie.2 hx hp).source
    simp [h3]

/-- Filling the transaction after a pad changes no pad. -/
theorem padSource_fill {bk : List Booked.Directive} {i j : Nat} {d2 : Booked.Directive} {t : Booked.Transaction}
    (h : bk[i]? = some d2) (ht : d2.variant = .transaction t) (ps : List Booked.Posting) :
    padSource (bk.set i (d2.withPostings t ps)) j = padSource bk j := by
  unfold padSource
  by_cases hij : i = j
  · subst hij
    have hl := (List.getElem?_eq_some_iff.1 h).1
    rw [List.getElem?_set_self hl, h]
    simp [ht, Booked.Directive.withPostings]
  · rw [List.getElem?_set_ne hij]

theorem pendingOf_congr {bk bk' : List Booked.Directive} (st : State L) (h : ∀ i, padSource bk' i = padSource bk i) :
    pendingOf bk' st = pendingOf bk st := by
  funext a
  unfold pendingOf
  simp [h]

theorem Rel.mk' {st : State L} {n : Nat} {bk : List Booked.Directive} {s : Ref L} (hi : StInv n bk st)
    (x : List Booked.Directive) (h1 : AMap.keys st.accounts = s.names) (h2 : st.inventory = s.held)
    (h3 : pendingOf bk st = s.pending) : Rel { st := st, booked := bk ++ x, errors := [] } s :=
  ⟨h1, h2, by rw [pendingOf_append hi]; exact h3, rfl⟩

/-- An accepted step of the accumulator is matched. -/
theorem refine_forward (hL : L.Lawful) {order : AMap Str (Account L) → AMap Str (Account L)} {o : BookOptions}
    (hf : (envOf L o order).Fair) {pre : List Raw.Directive} {raw : Raw.Directive} {r r' : Run L} {s : Ref L}
    (hg : Good (envOf L o order) pre r) (hr : Rel r s)
    (hs : r.step (envOf L o order) pre.length raw = some r') (he : r'.errors = []) :
    ∃ s', s.step o.bookingMethod o.tolerance pre raw = some s' ∧ Rel r' s' := by
  obtain ⟨-, st', v, v2, bk, hd, hbe, rfl⟩ := errors_nil_of_step hs he
  have hi := hg.inv
  rcases State.directive_ok hd with ⟨t, hv, ht, rfl, rfl⟩ | ⟨b, hv, hb, rfl⟩ | ⟨op, hv, ho, rfl, rfl⟩ |
    ⟨cl, hv, hc, rfl, rfl⟩ | ⟨p, v', hv, hp, rfl, rfl⟩ | ⟨hpl, rfl, rfl, rfl⟩
  · obtain ⟨q, hb, hfp, hin, -⟩ := State.transaction_ok ht
    have hsm := State.installInventory_sameMeta (Or.inl hin)
    rw [methodAt_eq hL.supported_dflt hg.life, hr.held] at hb
    rw [hg.firstPostingError] at hfp
    refine ⟨_, by simp only [Ref.step, hv]; rw [show (envOf L o order).tolerance = o.tolerance from rfl] at hb
                  simp only [hb, hfp, if_true]; rfl, ?_⟩
    simp only [Option.map_none, Option.toList_none, List.append_nil]
    refine Rel.mk' (hi.sameMeta hsm) _ (by rw [hsm.keys]; exact hr.names) ?_ (by rw [pendingOf_sameMeta hsm]; exact hr.pending)
    rw [State.installInventory_inventory hin, hr.held]
  · obtain ⟨a, hop, ha, hcv, hcase⟩ := State.balance_ok hb
    have hus : usable pre b.acc b.cur = true := (hg.usable_iff _ _).2 ⟨a, hop, ha, hcv⟩
    have hib := hi.balance hb
    have hkey : b.acc ∈ AMap.keys r.st.accounts := (AMap.mem_keys_iff _ _).2 ⟨a, ha⟩
    simp only [Option.map_none, Option.toList_none, List.append_nil]
    simp only [Ref.step, hv, hus, if_true]
    rw [marginOf_eq hf rfl hr hi.wfA] at hcase
    rcases hcase with ⟨hm, rfl, rfl, rfl⟩ | ⟨m, hm, hp, rfl, rfl, rfl⟩ | ⟨m, i, e0, hm, hp, hfl⟩
    · have hgt : (b.units.sub (s.total b.acc b.cur)).abs.gt (toleranceDec o.tolerance.multiplier b) = false := by
        by_contra hgt
        simp only [Bool.not_eq_false] at hgt
        simp [hgt] at hm
      have hpn : a.pad = none := by
        have := (balanceErrors_nil hbe).1
        simpa using this
      have hsp : s.pending b.acc = none := by
        rw [← hr.pending, hg.pending_none ha]; exact hpn
      refine ⟨s, by simp [hgt, hsp], ?_⟩
      refine Rel.mk' hib _ ?_ ?_ ?_
      · simp only [State.setAccount, AMap.keys_set, hkey, if_true]; exact hr.names
      · rw [State.inventory_setAccount, ← hr.held]
        have : r.st.inventory b.acc = some a.positions := by simp [State.inventory, ha]
        funext k
        by_cases hk : k = b.acc
        · subst hk; simp [this, Account.advance]
        · simp [hk]
      · rw [pendingOf_setAccount, hr.pending]
        simp only [Account.advance, Option.bind_none]
        rw [← hsp, Function.update_eq_self]
    · have := balanceErrors_nil hbe
      simp at this
    · split at hm
      · rename_i hgt
        simp only [Option.some.injEq] at hm
        obtain ⟨d, p, d2, t, src, h1, h2, h3, h4, rfl, h6, rfl, rfl⟩ := State.fillPad_ok hfl
        have hsp : s.pending b.acc = some p.source := by
          rw [← hr.pending]
          unfold pendingOf
          simp [ha, hp, padSource, h1, h2]
        have hsrc : p.source ∈ s.names := by
          have : p.source ∈ AMap.keys (r.st.resetTo b a m r.booked.length).accounts :=
            (AMap.mem_keys_iff _ _).2 ⟨src, h6⟩
          simp only [State.resetTo, State.setAccount, AMap.keys_set, hkey, if_true] at this
          rw [← hr.names]; exact this
        subst hm
        have hheldb : r.st.inventory b.acc = some a.positions := by simp [State.inventory, ha]
        refine ⟨_, by simp only [hgt, hsp, hsrc, if_true]; rfl, ?_⟩
        refine Rel.mk' hib _ ?_ ?_ ?_
        · have hk2 : p.source ∈ AMap.keys r.st.accounts := by rw [hr.names]; exact hsrc
          simp only [State.resetTo, State.setAccount, AMap.keys_set, hkey, hk2, if_true]
          exact hr.names
        · rw [State.inventory_setAccount, State.resetTo, State.inventory_setAccount]
          simp only [Ref.change]
          rw [← hr.held, hheldb]
          simp only [Option.map_some, Account.adjustAdd, Account.adjustSubtract, Account.advance]
          have hsrcinv : (r.st.resetTo b a (b.units.sub (s.total b.acc b.cur)) r.booked.length).inventory p.source =
              some src.positions := by simp [State.inventory, h6]
          rw [State.resetTo, State.inventory_setAccount] at hsrcinv
          simp only [Account.adjustAdd, Account.advance] at hsrcinv
          rw [hsrcinv]
          rfl
        · rw [pendingOf_congr _ (fun j => padSource_fill h3 h4 _), pendingOf_setAccount, State.resetTo,
            pendingOf_setAccount, hr.pending]
          simp only [Ref.change]
          have hsp2 : (src.adjustSubtract b.cur (b.units.sub (s.total b.acc b.cur))).pad = src.pad := rfl
          simp only [hsp2, Account.adjustAdd, Account.advance, Option.bind_none]
          by_cases hk : p.source = b.acc
          · rw [hk]
            have : src.pad = none := by
              simp only [State.resetTo, State.setAccount, hk, AMap.get_set, if_true, Option.some.injEq] at h6
              rw [← h6]; rfl
            simp [this]
          · have hsrc2 : r.st.accounts.get p.source = some src := by
              simpa [State.resetTo, State.setAccount, AMap.get_set, Ne.symm hk] using h6
            have : src.pad.bind (fun ie => padSource r.booked ie.1) = s.pending p.source := by
              rw [← hr.pending]; simp [pendingOf, hsrc2]
            rw [this]
            funext k
            by_cases hks : k = p.source
            · subst hks; simp [hk]
            · simp [hks]
      · cases hm
  · obtain ⟨h1, h2, rfl, h3, h4, h5⟩ := State.opn_ok ho
    have hnever : Spec.life pre op.acc = .never := by
      cases hl : Spec.life pre op.acc with
      | never => rfl
      | opn o' => obtain ⟨e, he⟩ := (hg.life.opn _ _ hl).2.1; simp [h1] at he
      | closed o' => obtain ⟨e, he⟩ := (hg.life.closed _ _ hl).2.1; simp [h2] at he
    have hnone := (hg.life.never _ hnever).2.2
    refine ⟨_, by simp only [Ref.step, hv, hnever, if_true]; rfl, ?_⟩
    simp only [Option.map_none, Option.toList_none, List.append_nil]
    refine Rel.mk' (hi.opn _ ho) _ ?_ ?_ ?_
    · have : op.acc ∉ AMap.keys r.st.accounts := (AMap.get_eq_none_iff _ _).1 hnone
      simp [h5, AMap.keys_set, this, ← hr.names]
    · simp only
      rw [← hr.held]
      funext k
      unfold State.inventory
      rw [h5, AMap.get_set]
      by_cases hk : op.acc = k
      · subst hk; simp [Account.new]
      · have hk' : k ≠ op.acc := fun e => hk e.symm
        simp [hk, hk']
    · simp only
      rw [← hr.pending]
      funext k
      unfold pendingOf
      rw [h5, AMap.get_set]
      by_cases hk : op.acc = k
      · subst hk; simp [Account.new, hnone]
      · simp [hk]
  · obtain ⟨⟨e, h1⟩, h2, rfl, rfl⟩ := State.close_ok hc
    have hop : isOpen pre cl.acc = true := by
      rw [← hg.opened]; simp [AMap.has, h1]
    refine ⟨s, by simp [Ref.step, hv, hop], ?_⟩
    simp only [Option.map_none, Option.toList_none, List.append_nil]
    exact Rel.mk' (hi.close hc) _ hr.names hr.held hr.pending
  · obtain ⟨a, hop, ha, hpn, rfl, rfl, rfl⟩ := State.pad_ok hp
    have hop' : isOpen pre p.acc = true := by rw [← hg.opened]; exact hop
    have hkey : p.acc ∈ AMap.keys r.st.accounts := (AMap.mem_keys_iff _ _).2 ⟨a, ha⟩
    have hsp : s.pending p.acc = none := by
      rw [← hr.pending, hg.pending_none ha]; exact hpn
    refine ⟨_, by simp only [Ref.step, hv, hop', hsp, and_self, if_true]; rfl, ?_⟩
    refine ⟨?_, ?_, ?_, rfl⟩
    · simp only [State.setAccount, AMap.keys_set, hkey, if_true]; exact hr.names
    · simp only
      rw [State.inventory_setAccount, ← hr.held]
      have : r.st.inventory p.acc = some a.positions := by simp [State.inventory, ha]
      simp only
      rw [← this, Function.update_eq_self]
    · simp only
      rw [pendingOf_setAccount, List.append_assoc, pendingOf_append hi, hr.pending]
      congr 1
      simp [padSource, mkBooked]
  · refine ⟨s, ?_, ?_⟩
    · revert hpl
      unfold Ref.step
      cases raw.variant <;> simp [plainVariant]
    · simp only [Option.map_none, Option.toList_none, List.append_nil]
      exact Rel.mk' hi _ hr.names hr.held hr.pending

/-- An acceptable directive is accepted by the accumulator. -/
theorem refine_backward (hL : L.Lawful) {order : AMap Str (Account L) → AMap Str (Account L)} {o : BookOptions}
    (hf : (envOf L o order).Fair) {pre : List Raw.Directive} {raw : Raw.Directive} {r : Run L} {s s' : Ref L}
    (hg : Good (envOf L o order) pre r) (hr : Rel r s)
    (hs : s.step o.bookingMethod o.tolerance pre raw = some s') :
    ∃ r', r.step (envOf L o order) pre.length raw = some r' ∧ r'.errors = [] := by
  have hi := hg.inv
  have hstep : ∀ st' v v2 bk, r.st.directive (envOf L o order) raw { directive := pre.length } r.booked =
      .ok st' (v, v2, bk) → balanceErrors st' { directive := pre.length } bk v = some [] →
      ∃ r', r.step (envOf L o order) pre.length raw = some r' ∧ r'.errors = [] := by
    intro st' v v2 bk h1 h2
    refine ⟨_, by unfold Run.step; simp only [h1, h2]; rfl, by simp [hr.errors]⟩
  have hopen : ∀ a, isOpen pre a = true → ∃ x, r.st.opened.has a = true ∧ r.st.accounts.get a = some x := by
    intro a ha
    rw [← hg.opened] at ha
    obtain ⟨e, he⟩ := Option.isSome_iff_exists.1 ha
    obtain ⟨x, hx⟩ := hi.openAcc a e he
    exact ⟨x, ha, hx⟩
  cases hv : raw.variant with
  | price x => exact hstep r.st (.price x) none r.booked (by simp [State.directive, hv]) rfl
  | commodity x => exact hstep r.st (.commodity x) none r.booked (by simp [State.directive, hv]) rfl
  | document x => exact hstep r.st (.document x) none r.booked (by simp [State.directive, hv]) rfl
  | note x => exact hstep r.st (.note x) none r.booked (by simp [State.directive, hv]) rfl
  | event x => exact hstep r.st (.event x) none r.booked (by simp [State.directive, hv]) rfl
  | query x => exact hstep r.st (.query x) none r.booked (by simp [State.directive, hv]) rfl
  | custom x => exact hstep r.st (.custom x) none r.booked (by simp [State.directive, hv]) rfl
  | opn op =>
    simp only [Ref.step, hv] at hs
    split at hs
    · rename_i hnever
      obtain ⟨h1, h2, -⟩ := hg.life.never _ hnever
      refine hstep _ (.opn op) none r.booked (by
        simp only [State.directive, hv, State.opn, h1, h2, Res.plain]; rfl) rfl
    · cases hs
  | close c =>
    simp only [Ref.step, hv] at hs
    split at hs
    · rename_i hop
      obtain ⟨x, ho, -⟩ := hopen _ hop
      obtain ⟨e, he⟩ := Option.isSome_iff_exists.1 ho
      have hcl : r.st.closed.get c.acc = none := by
        unfold isOpen at hop
        cases hl : Spec.life pre c.acc with
        | never => simp [hl] at hop
        | closed o => simp [hl] at hop
        | opn o => exact (hg.life.opn _ _ hl).2.2.1
      refine hstep _ (.close c) none r.booked (by
        simp only [State.directive, hv, State.close, he, hcl, Res.plain]; rfl) rfl
    · cases hs
  | pad p =>
    simp only [Ref.step, hv] at hs
    split at hs
    · rename_i hop
      obtain ⟨x, ho, hx⟩ := hopen _ hop.1
      have hpn : x.pad = none := by
        rw [← hg.pending_none hx, hr.pending]; exact hop.2
      refine hstep _ (.pad p) (some (.transaction { flag := padFlag, postings := [] })) r.booked (by
        simp only [State.directive, hv, State.pad, (State.getValidAccount_ok).2 ⟨ho, hx⟩, hpn]; rfl) rfl
    · cases hs
  | transaction t =>
    simp only [Ref.step, hv] at hs
    split at hs
    · cases hs
    · rename_i q hb
      split at hs
      · rename_i hall
        have hb' : L.book raw.date t.postings (envOf L o order).tolerance r.st.inventory
            (r.st.bookingFor (envOf L o order)) = .ok q := by
          rw [methodAt_eq hL.supported_dflt hg.life, hr.held]; exact hb
        have hfp := (hg.firstPostingError { directive := pre.length } 0 _).2 hall
        have hin : ∃ st', State.installInventory { directive := pre.length } r.st q.updated = .ok st' () := by
          apply State.installInventory_total
          intro aq haq
          obtain ⟨p, hp, hpa⟩ := hL.book_accounts _ _ _ _ _ _ hb aq.1 aq.2 haq
          have hlen := hL.book_length _ _ _ _ _ _ hb
          obtain ⟨j, hj, rfl⟩ := List.getElem_of_mem hp
          have hmem : (q.interpolated[j]'(by omega), t.postings[j]) ∈ q.interpolated.zip t.postings := by
            have hjz : j < (q.interpolated.zip t.postings).length := by simp; omega
            have := List.getElem_mem hjz
            rw [List.getElem_zip] at this
            exact this
          rw [List.all_eq_true] at hall
          have := hall _ hmem
          obtain ⟨x, h1, h2, -⟩ := (hg.usable_iff _ _).1 this
          rw [← hpa]
          exact ⟨h1, x, h2⟩
        obtain ⟨st', hin⟩ := hin
        exact hstep st' _ none r.booked (by
          simp only [State.directive, hv, State.transaction, State.book, hb', hfp, hin, Res.plain]; rfl) rfl
      · cases hs
  | balance b =>
    simp only [Ref.step, hv] at hs
    split at hs
    · rename_i hus
      obtain ⟨a, ho, ha, hcv⟩ := (hg.usable_iff _ _).1 hus
      have hm := marginOf_eq hf (env := envOf L o order) rfl hr hi.wfA b
      unfold State.marginOf at hm
      have hg1 := (State.getValidAccount_ok (e := { directive := pre.length })).2 ⟨ho, ha⟩
      have hg2 := (Account.validateCurrency_none (e := { directive := pre.length })).2 hcv
      split at hs
      · rename_i hgt hpn
        have hpn' : a.pad = none := by
          rw [← hg.pending_none ha, hr.pending]; exact hpn
        rw [hgt] at hm
        refine hstep _ (.balance { raw := b, unusedPad := none }) none r.booked (by
          simp only [State.directive, hv, State.balance, hg1, hg2, hm, Bool.false_eq_true, if_false, hpn']; rfl) rfl
      · rename_i src hgt hpn
        split at hs
        · rename_i hsrc
          rw [hgt] at hm
          simp only [if_true] at hm
          have hps : ∃ ie, a.pad = some ie := by
            cases hap : a.pad with
            | some ie => exact ⟨ie, rfl⟩
            | none =>
              rw [← hr.pending, (hg.pending_none ha).2 hap] at hpn
              cases hpn
          obtain ⟨⟨i, e0⟩, hps⟩ := hps
          obtain ⟨d, p, d2, t, h1, h2, h3, h4, h5, h6, h7, h8⟩ := hi.pad _ _ _ _ ha hps
          have hsrcp : p.source = src := by
            rw [← hr.pending] at hpn
            unfold pendingOf at hpn
            simpa [ha, hps, padSource, h1, h2] using hpn
          set m := b.units.sub (s.total b.acc b.cur) with hmdef
          have hk : p.source ∈ AMap.keys (r.st.resetTo b a m r.booked.length).accounts := by
            have hkey : b.acc ∈ AMap.keys r.st.accounts := (AMap.mem_keys_iff _ _).2 ⟨a, ha⟩
            simp only [State.resetTo, State.setAccount, AMap.keys_set, hkey, if_true, hsrcp]
            rw [hr.names]; exact hsrc
          rw [AMap.mem_keys_iff] at hk
          obtain ⟨y, hy⟩ := hk
          have hfill : ∃ st' bk', (r.st.resetTo b a m r.booked.length).fillPad b m i r.booked =
              .ok st' (.balance { raw := b }, bk') := by
            unfold State.fillPad
            obtain ⟨n, dt, tg, ln, md, vr⟩ := d
            simp only at h2
            subst h2
            simp only [h1]
            have := (setPostingsAt_some (bk := r.booked) (i := i + 1)
              (ps := calculateBalancePadPostings b.cur m b.acc p.source) (bk' := _)).2 ⟨d2, t, h5, h6, rfl⟩
            simp only [this, hy]
            exact ⟨_, _, rfl⟩
          obtain ⟨st', bk', hfill⟩ := hfill
          refine hstep st' (.balance { raw := b }) none bk' (by
            unfold State.resetTo at hfill
            simp only [State.directive, hv, State.balance, hg1, hg2, hm, hps, hfill]) rfl
        · cases hs
      · cases hs
      · cases hs
    · cases hs

theorem Run.loop_snoc {env : Env L} {n : Nat} {ds : List Raw.Directive} {r r' : Run L} {d : Raw.Directive} :
    Run.loop env n (ds ++ [d]) r = some r' ↔ ∃ r1, Run.loop env n ds r = some r1 ∧
      r1.step env (n + ds.length) d = some r' := by
  rw [Run.loop_append]
  cases Run.loop env n ds r with
  | none => simp
  | some r1 =>
    simp only [Option.bind_some, Run.loop, Option.some.injEq, exists_eq_left']
    cases r1.step env (n + ds.length) d <;> simp

theorem Rel.init : Rel ({} : Run L) (Ref.init L) := by
  refine ⟨rfl, ?_, ?_, rfl⟩
  · funext a; simp [State.inventory, Ref.init]
  · funext a; simp [pendingOf, Ref.init]

theorem Good.init (env : Env L) : Good env [] ({} : Run L) := by
  refine ⟨StInv.init, LifeInv.init env, ?_⟩
  rintro a ⟨p, d, q, o, h, -⟩
  simp at h

/-- Runs without reports correspond to runs of the reference semantics. -/
theorem refine_loop (hL : L.Lawful) {order : AMap Str (Account L) → AMap Str (Account L)} {o : BookOptions}
    (hf : (envOf L o order).Fair) (ds pre : List Raw.Directive) (r : Run L) (s : Ref L)
    (hg : Good (envOf L o order) pre r) (hr : Rel r s) :
    (∀ r', Run.loop (envOf L o order) pre.length ds r = some r' → r'.errors = [] →
      ∃ s', Ref.run o.bookingMethod o.tolerance pre s ds = some s' ∧ Rel r' s' ∧ Good (envOf L o order) (pre ++ ds) r') ∧
    (∀ s', Ref.run o.bookingMethod o.tolerance pre s ds = some s' →
      ∃ r', Run.loop (envOf L o order) pre.length ds r = some r' ∧ r'.errors = []) := by
  induction ds generalizing pre r s with
  | nil =>
    constructor
    · intro r' h he
      simp only [Run.loop, Option.some.injEq] at h
      subst h
      exact ⟨s, rfl, hr, by simpa using hg⟩
    · intro s' _
      exact ⟨r, rfl, hr.errors⟩
  | cons d ds ih =>
    constructor
    · intro r' h he
      simp only [Run.loop] at h
      cases hst : r.step (envOf L o order) pre.length d with
      | none => simp [hst] at h
      | some r1 =>
        simp only [hst] at h
        have he1 : r1.errors = [] := by
          have : ∀ (ds : List Raw.Directive) (n : Nat) (r r' : Run L), Run.loop (envOf L o order) n ds r = some r' →
              r'.errors = [] → r.errors = [] := by
            intro ds
            induction ds with
            | nil => intro n r r' h he; simp only [Run.loop, Option.some.injEq] at h; rw [h]; exact he
            | cons d ds ih =>
              intro n r r' h he
              simp only [Run.loop] at h
              cases hst : r.step (envOf L o order) n d with
              | none => simp [hst] at h
              | some r1 =>
                simp only [hst] at h
                exact (errors_nil_of_step hst (ih _ _ _ h he)).1
          exact this _ _ _ _ h he
        obtain ⟨s1, hs1, hr1⟩ := refine_forward hL hf hg hr hst he1
        have hg1 := hg.step hst he1
        obtain ⟨s', h1, h2, h3⟩ := (ih (pre ++ [d]) r1 s1 hg1 hr1).1 r' (by simpa using h) he
        exact ⟨s', by simp only [Ref.run, hs1]; exact h1, h2, by simpa using h3⟩
    · intro s' h
      simp only [Ref.run] at h
      cases hst : s.step o.bookingMethod o.tolerance pre d with
      | none => simp [hst] at h
      | some s1 =>
        simp only [hst] at h
        obtain ⟨r1, hr1, he1⟩ := refine_backward hL hf hg hr hst
        have hg1 := hg.step hr1 he1
        obtain ⟨s2, hs2, hrel⟩ := refine_forward hL hf hg hr hr1 he1
        rw [hst] at hs2
        cases hs2
        obtain ⟨r', h1, h2⟩ := (ih (pre ++ [d]) r1 s1 hg1 hrel).2 s' h
        refine ⟨r', ?_, h2⟩
        simp only [Run.loop, hr1]
        simpa using h1

/-- The accumulator accepts exactly the accepted ledgers. -/
theorem accepted_iff (hL : L.Lawful) {order : AMap Str (Account L) → AMap Str (Account L)}
    (hf : ∀ m, (order m).Perm m) (o : BookOptions) (ds : List Raw.Directive) :
    (∃ out w, book L order o ds = .success out w) ↔ Accepted L o.bookingMethod o.tolerance ds := by
  have hfair : (envOf L o order).Fair := hf
  have key := refine_loop hL hfair ds [] {} (Ref.init L) (Good.init _) Rel.init
  constructor
  · rintro ⟨out, w, h⟩
    obtain ⟨r, hl, he, hp, -, -⟩ := collect_success h
    obtain ⟨s, hs, hr, hg⟩ := key.1 r hl he
    refine ⟨s, hs, ?_⟩
    rw [leftOverPads_nil hfair] at hp
    intro a
    rw [← hr.pending]
    unfold pendingOf
    cases ha : r.st.accounts.get a with
    | none => rfl
    | some x =>
      have := hp (a, x) (AMap.mem_of_get ha)
      simp only at this
      simp [this]
  · rintro ⟨s, hs, hp⟩
    obtain ⟨r, hl, he⟩ := key.2 s hs
    obtain ⟨s', hs', hr, hg⟩ := key.1 r hl he
    rw [hs] at hs'
    cases hs'
    refine ⟨r.booked, r.st.warnings, ?_⟩
    unfold book collect
    have hl : Run.loop (envOf L o order) 0 ds {} = some r := hl
    simp only [hl, Run.validate, he, List.nil_append]
    have : r.st.leftOverPads (envOf L o order) = [] := by
      rw [leftOverPads_nil hfair]
      intro ka hka
      have hget := AMap.get_of_mem hg.inv.wfA (k := ka.1) (v := ka.2) hka
      have := hp ka.1
      rw [← hr.pending] at this
      exact (hg.pending_none hget).1 this
    simp [this]

end Limabean
