/-
How the booked directives evolve: they are appended to, and the transaction after a pending pad is filled once.
-/
import Verif.Proofs.BalanceStep

namespace Limabean

open Spec

variable {L : BookLib}

/-- The pad of account `a` recorded in a state. -/
def State.padOf (st : State L) (a : Str) : Option (Nat × ElementIdx) := (st.accounts.get a).bind fun x => x.pad

theorem State.padOf_some {st : State L} {a : Str} {ie : Nat × ElementIdx} :
    st.padOf a = some ie ↔ ∃ x, st.accounts.get a = some x ∧ x.pad = some ie := by
  unfold State.padOf
  simp [Option.bind_eq_some_iff]

theorem State.padOf_setAccount {st : State L} {k : Str} {x : Account L} (a : Str) :
    (st.setAccount k x).padOf a = if k = a then x.pad else st.padOf a := by
  unfold State.padOf State.setAccount
  simp only [AMap.get_set]
  split <;> simp

theorem State.padOf_sameMeta {st st' : State L} (h : SameMeta st st') : st'.padOf = st.padOf := by
  funext a
  unfold State.padOf
  cases ha : st.accounts.get a with
  | none => rw [h.sameOpen.none_ a ha]
  | some x =>
    obtain ⟨x', hx', hs⟩ := h.forward ha
    simp [hx', hs.pad]

/-- What one step does to the booked directives and the pending pads. -/
inductive Evolves (r r' : Run L) : Prop
  /-- directives are appended; a pad may be recorded at the first new position -/
  | append (x : List Booked.Directive) (hb : r'.booked = r.booked ++ x)
      (hp : ∀ a j e, r'.st.padOf a = some (j, e) → r.st.padOf a = some (j, e) ∨ j = r.booked.length)
  /-- a pending pad is filled, and directives are appended -/
  | fill (x : List Booked.Directive) (a : Str) (i : Nat) (e : ElementIdx) (d2 : Booked.Directive) (t : Booked.Transaction)
      (src cur : Str) (m : Dec)
      (hpad : r.st.padOf a = some (i, e)) (hsrc : padSource r.booked i = some src)
      (hd : r.booked[i+1]? = some d2) (ht : d2.variant = .transaction t)
      (hb : r'.booked = r.booked.set (i+1) (d2.withPostings t (calculateBalancePadPostings cur m a src)) ++ x)
      (hp : ∀ a' j e, r'.st.padOf a' = some (j, e) → r.st.padOf a' = some (j, e) ∧ a' ≠ a)

theorem Evolves.step {n : Nat} {env : Env L} {raw : Raw.Directive} {r r' : Run L}
    (hi : StInv n r.booked r.st) (hs : r.step env n raw = some r') : Evolves r r' := by
  rcases Run.step_some hs with ⟨st', x, hd, rfl⟩ | ⟨st', v, v2, bk, errs, hd, -, rfl⟩
  · refine .append [] (by simp) ?_
    intro a j e h
    left
    simp only at h
    rcases State.directive_err hd with ⟨t, -, ht⟩ | ⟨b, -, hb⟩ | ⟨o, -, ho⟩ | ⟨c, -, hc⟩ | ⟨p, -, hp⟩
    · rcases State.transaction_err ht with ⟨rfl, -⟩ | ⟨rfl, -⟩ | ⟨q, -, ⟨rfl, -⟩ | ⟨-, hin⟩⟩
      · exact h
      · exact h
      · exact h
      · rw [State.padOf_sameMeta (State.installInventory_sameMeta (Or.inr ⟨_, hin⟩))] at h
        exact h
    · rw [(State.balance_err hb).1] at h; exact h
    · rcases State.opn_err ho with ⟨_, -, rfl, -⟩ | ⟨_, -, -, rfl, -⟩ <;> exact h
    · rw [(State.close_err hc).1] at h; exact h
    · rcases State.pad_err hp with ⟨rfl, -⟩ | ⟨y, j', u, -, hy, -, rfl, -⟩
      · exact h
      · rw [State.padOf_setAccount] at h
        split at h
        · cases h
        · exact h
  · rcases State.directive_ok hd with ⟨t, hv, ht, rfl, rfl⟩ | ⟨b, hv, hb, rfl⟩ | ⟨op, hv, ho, rfl, rfl⟩ |
      ⟨cl, hv, hc, rfl, rfl⟩ | ⟨p, v', hv, hp, rfl, rfl⟩ | ⟨hpl, rfl, rfl, rfl⟩
    · refine .append _ (List.append_assoc _ _ _) ?_
      obtain ⟨q, -, -, hin, -⟩ := State.transaction_ok ht
      intro a j e h
      simp only at h
      rw [State.padOf_sameMeta (State.installInventory_sameMeta (Or.inl hin))] at h
      exact Or.inl h
    · obtain ⟨y, hop, hy, -, ⟨-, rfl, -, rfl⟩ | ⟨m, -, hyp, rfl, -, rfl⟩ | ⟨m, i, e0, -, hyp, hf⟩⟩ := State.balance_ok hb
      · refine .append _ (List.append_assoc _ _ _) ?_
        intro a j e h
        simp only [State.padOf_setAccount] at h
        split at h
        · cases h
        · exact Or.inl h
      · refine .append _ (List.append_assoc _ _ _) ?_
        intro a j e h
        simp only [State.resetTo, State.padOf_setAccount] at h
        split at h
        · cases h
        · exact Or.inl h
      · obtain ⟨d, p, d2, t, src, h1, h2, h3, h4, rfl, h6, rfl, rfl⟩ := State.fillPad_ok hf
        refine .fill _ b.acc i e0 d2 t p.source b.cur m (State.padOf_some.2 ⟨y, hy, hyp⟩) (by simp [padSource, h1, h2])
          h3 h4 (List.append_assoc _ _ _) ?_
        intro a j e h
        simp only [State.padOf_setAccount] at h
        have hres : ∀ a, (r.st.resetTo b y m r.booked.length).padOf a = if b.acc = a then none else r.st.padOf a := by
          intro a
          rw [State.resetTo, State.padOf_setAccount]
          rfl
        split at h
        · rename_i hps
          subst hps
          have : (r.st.resetTo b y m r.booked.length).padOf p.source = some (j, e) := State.padOf_some.2 ⟨src, h6, h⟩
          rw [hres] at this
          split at this
          · cases this
          · rename_i hne
            exact ⟨this, fun e => hne e.symm⟩
        · rw [hres] at h
          split at h
          · cases h
          · rename_i hne
            exact ⟨h, fun e => hne e.symm⟩
    · refine .append _ (List.append_assoc _ _ _) ?_
      obtain ⟨-, -, -, -, -, h5⟩ := State.opn_ok ho
      intro a j e h
      left
      simp only [State.padOf, h5, AMap.get_set] at h
      split at h
      · simp [Account.new] at h
      · exact h
    · refine .append _ (List.append_assoc _ _ _) ?_
      obtain ⟨-, -, -, rfl⟩ := State.close_ok hc
      exact fun a j e h => Or.inl h
    · refine .append _ (List.append_assoc _ _ _) ?_
      obtain ⟨y, -, hy, hyp, rfl, -, -⟩ := State.pad_ok hp
      intro a j e h
      simp only [State.padOf_setAccount] at h
      split at h
      · simp only [Option.some.injEq, Prod.mk.injEq] at h
        exact Or.inr h.1.symm
      · exact Or.inl h
    · exact .append _ (List.append_assoc _ _ _) fun a j e h => Or.inl h

/-- The booked directives of a later run: unchanged, but for the transactions of pads which were pending. -/
structure Extends (r r' : Run L) : Prop where
  booked : ∀ i d, r.booked[i]? = some d → r'.booked[i]? = some d ∨
    ∃ a j e t src cur m, i = j + 1 ∧ r.st.padOf a = some (j, e) ∧ padSource r.booked j = some src ∧
      d.variant = .transaction t ∧ t.postings = [] ∧
      r'.booked[i]? = some (d.withPostings t (calculateBalancePadPostings cur m a src)) ∧
      ∀ a' e', r'.st.padOf a' ≠ some (j, e')
  pad : ∀ a j e, r'.st.padOf a = some (j, e) → j < r.booked.length → r.st.padOf a = some (j, e)
  length : r.booked.length ≤ r'.booked.length

theorem Extends.refl (r : Run L) : Extends r r := ⟨fun _ _ h => Or.inl h, fun _ _ _ h _ => h, le_refl _⟩

theorem StInv.padAt {n : Nat} {bk : List Booked.Directive} {st : State L} (h : StInv n bk st) {a : Str} {j : Nat}
    {e : ElementIdx} (hp : st.padOf a = some (j, e)) : PadAt bk a j e := by
  obtain ⟨x, hx, hxp⟩ := State.padOf_some.1 hp
  exact h.pad a x j e hx hxp

theorem Extends.step {n : Nat} {r r' r'' : Run L} (hi' : StInv n r'.booked r'.st)
    (h : Extends r r') (hs : Evolves r' r'') : Extends r r'' := by
  cases hs with
  | append x hb hp =>
    refine ⟨?_, ?_, ?_⟩
    · intro i d hd
      have hlt := (List.getElem?_eq_some_iff.1 hd).1
      have hlt' : i < r'.booked.length := by have := h.length; omega
      rw [hb, List.getElem?_append_left hlt']
      rcases h.booked i d hd with h1 | ⟨a, j, e, t, src, cur, m, rfl, h2, h3, h4, h5, h6, h7⟩
      · exact Or.inl h1
      · refine Or.inr ⟨a, j, e, t, src, cur, m, rfl, h2, h3, h4, h5, h6, ?_⟩
        intro a' e' hpad
        rcases hp a' j e' hpad with h8 | h8
        · exact h7 a' e' h8
        · omega
    · intro a j e hpad hlt
      rcases hp a j e hpad with h1 | h1
      · exact h.pad a j e h1 hlt
      · have := h.length; omega
    · rw [hb]; have := h.length; simp; omega
  | fill x a i e d2 t src cur m hpad hsrc hd ht hb hp =>
    refine ⟨?_, ?_, ?_⟩
    · intro k d hk
      have hlt := (List.getElem?_eq_some_iff.1 hk).1
      have hlt' : k < r'.booked.length := by have := h.length; omega
      rw [hb, List.getElem?_append_left (by simpa using hlt')]
      by_cases hki : i + 1 = k
      · subst hki
        rw [List.getElem?_set_self hlt']
        rcases h.booked (i+1) d hk with h1 | ⟨a', j, e', t', src', cur', m', hj, h2, h3, h4, h5, h6, h7⟩
        · rw [hd] at h1
          cases h1
          have hold := h.pad a i e hpad (by omega)
          obtain ⟨f, q, f2, u, g1, g2, g3, g4, g5, g6, g7, g8⟩ := hi'.padAt hpad
          rw [hd] at g5
          cases g5
          rw [ht] at g6
          cases g6
          refine Or.inr ⟨a, i, e, t, src, cur, m, rfl, hold, ?_, ht, g7, rfl, ?_⟩
          · have hs2 : padSource r'.booked i = padSource r.booked i := by
              have hi0 : i < r.booked.length := by omega
              rcases h.booked i _ (List.getElem?_eq_getElem hi0) with h1 | ⟨a', j, e', t', src', cur', m', hj, h2, h3, h4, h5, h6, h7⟩
              · simp only [padSource, h1, List.getElem?_eq_getElem hi0]
              · rw [g1] at h6
                simp only [Option.some.injEq] at h6
                rw [h6] at g2
                simp [Booked.Directive.withPostings] at g2
            rw [← hs2]; exact hsrc
          · intro a' e' hcon
            obtain ⟨h1, hne⟩ := hp a' i e' hcon
            obtain ⟨f', q', f2', u', k1, k2, k3, -⟩ := hi'.padAt h1
            rw [g1] at k1
            cases k1
            rw [g2] at k2
            cases k2
            exact hne (k3.symm.trans g3)
        · have : j = i := by omega
          subst this
          exact absurd hpad (h7 a e)
      · rw [List.getElem?_set_ne hki]
        rcases h.booked k d hk with h1 | ⟨a', j, e', t', src', cur', m', hj, h2, h3, h4, h5, h6, h7⟩
        · exact Or.inl h1
        · exact Or.inr ⟨a', j, e', t', src', cur', m', hj, h2, h3, h4, h5, h6, fun a'' e'' hcon => h7 a'' e'' (hp a'' j e'' hcon).1⟩
    · intro a' j e' hpad' hlt
      exact h.pad a' j e' (hp a' j e' hpad').1 hlt
    · rw [hb]; have := h.length; simp; omega

theorem Extends.loop {env : Env L} (ds : List Raw.Directive) (n : Nat) (r r' : Run L)
    (hi : StInv n r.booked r.st) (h : Run.loop env n ds r = some r') : Extends r r' := by
  have : ∀ (ds : List Raw.Directive) (n : Nat) (r0 r r' : Run L), StInv n r.booked r.st → Extends r0 r →
      Run.loop env n ds r = some r' → Extends r0 r' := by
    intro ds
    induction ds with
    | nil => intro n r0 r r' _ he h; simp only [Run.loop, Option.some.injEq] at h; rw [← h]; exact he
    | cons d ds ih =>
      intro n r0 r r' hi he h
      simp only [Run.loop] at h
      cases hs : r.step env n d with
      | none => simp [hs] at h
      | some r1 =>
        simp only [hs] at h
        exact ih (n+1) r0 r1 r' (hi.step hs) (he.step hi (Evolves.step hi hs)) h
  exact this ds n r r r' hi (Extends.refl r) h

/-! ### Pending pads and the input -/

/-- In a run without reports each pending pad is a pad of the input which no balance on its account follows. -/
def PendInv (pre : List Raw.Directive) (r : Run L) : Prop :=
  r.errors = [] → ∀ a j e, r.st.padOf a = some (j, e) → ∃ l d p m, pre = l ++ d :: m ∧ d.variant = .pad p ∧ p.acc = a ∧
    padSource r.booked j = some p.source ∧ e = { directive := l.length } ∧
    ∀ d' ∈ m, ∀ b, d'.variant = .balance b → b.acc ≠ a

theorem PendInv.step {env : Env L} {pre : List Raw.Directive} {raw : Raw.Directive} {r r' : Run L}
    (hi : StInv pre.length r.booked r.st) (h : PendInv pre r) (hs : r.step env pre.length raw = some r') :
    PendInv (pre ++ [raw]) r' := by
  intro he a j e hpad
  obtain ⟨he0, st', v, v2, bk, hd, -, rfl⟩ := errors_nil_of_step hs he
  simp only at hpad
  -- a pad which was pending and is still pending
  have keep : r.st.padOf a = some (j, e) → (∀ b, raw.variant = .balance b → b.acc ≠ a) →
      padSource (bk ++ [mkBooked pre.length raw v] ++ (v2.map (mkBooked pre.length raw)).toList) j =
        padSource r.booked j →
      ∃ l d p m, pre ++ [raw] = l ++ d :: m ∧ d.variant = .pad p ∧ p.acc = a ∧
        padSource (bk ++ [mkBooked pre.length raw v] ++ (v2.map (mkBooked pre.length raw)).toList) j = some p.source ∧
        e = { directive := l.length } ∧ ∀ d' ∈ m, ∀ b, d'.variant = .balance b → b.acc ≠ a := by
    intro h1 h2 h3
    obtain ⟨l, d, p, m, rfl, k1, k2, k3, k4, k5⟩ := h he0 a j e h1
    refine ⟨l, d, p, m ++ [raw], by simp, k1, k2, by rw [h3]; exact k3, k4, ?_⟩
    intro d' hd' b hb
    rcases List.mem_append.1 hd' with hd' | hd'
    · exact k5 d' hd' b hb
    · simp only [List.mem_singleton] at hd'
      subst hd'
      exact h2 b hb
  have app : r.st.padOf a = some (j, e) → padSource (r.booked ++ [mkBooked pre.length raw v] ++
      (v2.map (mkBooked pre.length raw)).toList) j = padSource r.booked j := by
    intro h1
    rw [List.append_assoc, padSource_append (hi.padAt h1).lt]
  rcases State.directive_ok hd with ⟨t, hv, ht, rfl, rfl⟩ | ⟨b, hv, hb, rfl⟩ | ⟨op, hv, ho, rfl, rfl⟩ |
      ⟨cl, hv, hc, rfl, rfl⟩ | ⟨p, v', hv, hp, rfl, rfl⟩ | ⟨hpl, rfl, rfl, rfl⟩
  · obtain ⟨q, -, -, hin, -⟩ := State.transaction_ok ht
    rw [State.padOf_sameMeta (State.installInventory_sameMeta (Or.inl hin))] at hpad
    exact keep hpad (by simp [hv]) (app hpad)
  · obtain ⟨y, hop, hy, -, ⟨-, rfl, -, rfl⟩ | ⟨m, -, hyp, rfl, -, rfl⟩ | ⟨m, i, e0, -, hyp, hf⟩⟩ := State.balance_ok hb
    · rw [State.padOf_setAccount] at hpad
      split at hpad
      · cases hpad
      · rename_i hne
        refine keep hpad ?_ (app hpad)
        rintro b' hb'; rw [hv] at hb'; cases hb'; exact hne
    · rw [State.resetTo, State.padOf_setAccount] at hpad
      split at hpad
      · cases hpad
      · rename_i hne
        refine keep hpad ?_ (app hpad)
        rintro b' hb'; rw [hv] at hb'; cases hb'; exact hne
    · obtain ⟨d, p, d2, t, src, h1, h2, h3, h4, rfl, h6, rfl, rfl⟩ := State.fillPad_ok hf
      have hres : ∀ a, (r.st.resetTo b y m r.booked.length).padOf a = if b.acc = a then none else r.st.padOf a := by
        intro a
        rw [State.resetTo, State.padOf_setAccount]
        rfl
      have : r.st.padOf a = some (j, e) ∧ b.acc ≠ a := by
        rw [State.padOf_setAccount] at hpad
        have hpad' : (r.st.resetTo b y m r.booked.length).padOf a = some (j, e) := by
          split at hpad
          · rename_i hps
            subst hps
            exact State.padOf_some.2 ⟨src, h6, hpad⟩
          · exact hpad
        rw [hres] at hpad'
        split at hpad'
        · cases hpad'
        · rename_i hne; exact ⟨hpad', hne⟩
      refine keep this.1 ?_ ?_
      · rintro b' hb'; rw [hv] at hb'; cases hb'; exact this.2
      · rw [List.append_assoc, padSource_append (by simpa using (hi.padAt this.1).lt), padSource_fill h3 h4]
  · obtain ⟨-, -, -, -, -, h5⟩ := State.opn_ok ho
    have : r.st.padOf a = some (j, e) := by
      simp only [State.padOf, h5, AMap.get_set] at hpad
      split at hpad
      · simp [Account.new] at hpad
      · exact hpad
    exact keep this (by simp [hv]) (app this)
  · obtain ⟨-, -, -, rfl⟩ := State.close_ok hc
    exact keep hpad (by simp [hv]) (app hpad)
  · obtain ⟨y, -, hy, hyp, rfl, rfl, rfl⟩ := State.pad_ok hp
    rw [State.padOf_setAccount] at hpad
    split at hpad
    · rename_i hpa
      simp only [Option.some.injEq, Prod.mk.injEq] at hpad
      obtain ⟨rfl, rfl⟩ := hpad
      refine ⟨pre, raw, p, [], by simp, hv, hpa, ?_, rfl, by simp⟩
      simp [padSource, mkBooked]
    · exact keep hpad (by simp [hv]) (app hpad)
  · refine keep hpad ?_ (app hpad)
    intro b hb
    rw [hb] at hpl
    simp [plainVariant] at hpl

theorem PendInv.loop {env : Env L} {ds : List Raw.Directive} {r : Run L} (h : Run.loop env 0 ds {} = some r) :
    PendInv ds r := by
  have := Run.loop_induction env (fun pre r => StInv pre.length r.booked r.st ∧ PendInv pre r)
    ⟨StInv.init, by intro _ a j e h; simp [State.padOf] at h⟩
    (fun pre raw r r' hp hs => ⟨by simpa using hp.1.step hs, hp.2.step hp.1 hs⟩) h
  exact this.2

theorem loop_errors_nil {env : Env L} (ds : List Raw.Directive) (n : Nat) (r r' : Run L)
    (h : Run.loop env n ds r = some r') (he : r'.errors = []) : r.errors = [] := by
  induction ds generalizing n r with
  | nil => simp only [Run.loop, Option.some.injEq] at h; rw [h]; exact he
  | cons d ds ih =>
    simp only [Run.loop] at h
    cases hst : r.step env n d with
    | none => simp [hst] at h
    | some r1 =>
      simp only [hst] at h
      exact (errors_nil_of_step hst (ih _ _ h)).1

/-- Splitting a run at a directive. -/
theorem loop_split {env : Env L} {ds1 ds2 : List Raw.Directive} {raw : Raw.Directive} {r : Run L}
    (h : Run.loop env 0 (ds1 ++ raw :: ds2) {} = some r) :
    ∃ r1 r2, Run.loop env 0 ds1 {} = some r1 ∧ r1.step env ds1.length raw = some r2 ∧
      Run.loop env 0 (ds1 ++ [raw]) {} = some r2 ∧ Run.loop env (ds1.length + 1) ds2 r2 = some r := by
  rw [Run.loop_append] at h
  cases h1 : Run.loop env 0 ds1 {} with
  | none => simp [h1] at h
  | some r1 =>
    simp only [h1, Option.bind_some, Run.loop, Nat.zero_add] at h
    cases h2 : r1.step env ds1.length raw with
    | none => simp [h2] at h
    | some r2 =>
      simp only [h2] at h
      refine ⟨r1, r2, rfl, h2, ?_, h⟩
      rw [Run.loop_snoc]
      exact ⟨r1, h1, by simpa using h2⟩

/-- Where a booked balance comes from. -/
theorem balance_origin {env : Env L} {ds : List Raw.Directive} {r : Run L} (h : Run.loop env 0 ds {} = some r)
    (he : r.errors = []) {i : Nat} {d : Booked.Directive} (hd : r.booked[i]? = some d) {bb : Booked.Balance}
    (hv : d.variant = .balance bb) :
    ∃ ds1 raw ds2 r1 r2, ds = ds1 ++ raw :: ds2 ∧ Run.loop env 0 ds1 {} = some r1 ∧
      r1.step env ds1.length raw = some r2 ∧ Run.loop env 0 (ds1 ++ [raw]) {} = some r2 ∧
      Run.loop env (ds1.length + 1) ds2 r2 = some r ∧
      r1.booked.length = i ∧ raw.variant = .balance bb.raw ∧ d.idx = ds1.length := by
  have key : ∀ ds r, Run.loop env 0 ds {} = some r → r.errors = [] → ∀ i d, r.booked[i]? = some d →
      ∀ bb, d.variant = .balance bb → ∃ ds1 raw ds2 r1, ds = ds1 ++ raw :: ds2 ∧ Run.loop env 0 ds1 {} = some r1 ∧
        r1.booked.length = i ∧ raw.variant = .balance bb.raw ∧ d.idx = ds1.length := by
    intro ds r h
    refine Run.loop_induction env (fun ds r => Run.loop env 0 ds {} = some r ∧ (r.errors = [] → ∀ i d, r.booked[i]? = some d →
      ∀ bb, d.variant = .balance bb → ∃ ds1 raw ds2 r1, ds = ds1 ++ raw :: ds2 ∧ Run.loop env 0 ds1 {} = some r1 ∧
        r1.booked.length = i ∧ raw.variant = .balance bb.raw ∧ d.idx = ds1.length)) ⟨rfl, by simp⟩ ?_ h |>.2
    rintro pre raw r r' ⟨hl, hp⟩ hs
    have hl' : Run.loop env 0 (pre ++ [raw]) {} = some r' := by
      rw [Run.loop_snoc]; exact ⟨r, hl, by simpa using hs⟩
    refine ⟨hl', ?_⟩
    intro he i d hd bb hv
    have hinv := StInv.loop hl
    obtain ⟨he0, st', v, v2, bk, hdir, -, rfl⟩ := errors_nil_of_step hs he
    have old : ∀ d', r.booked[i]? = some d' → d'.variant = .balance bb → d'.idx = d.idx →
        ∃ ds1 raw1 ds2 r1, pre ++ [raw] = ds1 ++ raw1 :: ds2 ∧ Run.loop env 0 ds1 {} = some r1 ∧
        r1.booked.length = i ∧ raw1.variant = .balance bb.raw ∧ d.idx = ds1.length := by
      intro d' h1 h2 h3
      obtain ⟨ds1, raw1, ds2, r1, rfl, k1, k2, k3, k4⟩ := hp he0 i d' h1 bb h2
      exact ⟨ds1, raw1, ds2 ++ [raw], r1, by simp, k1, k2, k3, by rw [← h3]; exact k4⟩
    have new : bk.length = r.booked.length → i = bk.length → v = .balance bb → raw.variant = .balance bb.raw →
        d.idx = pre.length → ∃ ds1 raw1 ds2 r1, pre ++ [raw] = ds1 ++ raw1 :: ds2 ∧ Run.loop env 0 ds1 {} = some r1 ∧
        r1.booked.length = i ∧ raw1.variant = .balance bb.raw ∧ d.idx = ds1.length := by
      intro h1 h2 h3 h4 h5
      exact ⟨pre, raw, [], r, rfl, hl, by omega, h4, h5⟩
    simp only at hd
    by_cases hib : i < bk.length
    · rw [List.append_assoc, List.getElem?_append_left hib] at hd
      rcases State.directive_ok hdir with ⟨t, _, ht, rfl, rfl⟩ | ⟨b, _, hb, rfl⟩ | ⟨op, _, ho, rfl, rfl⟩ |
        ⟨cl, _, hc, rfl, rfl⟩ | ⟨p, v', _, hp', rfl, rfl⟩ | ⟨hpl, rfl, rfl, rfl⟩
      · exact old d hd hv rfl
      · obtain ⟨y, hop, hy, -, ⟨-, rfl, -, rfl⟩ | ⟨m, -, hyp, rfl, -, rfl⟩ | ⟨m, k, e0, -, hyp, hf⟩⟩ := State.balance_ok hb
        · exact old d hd hv rfl
        · exact old d hd hv rfl
        · obtain ⟨d1, p, d2, t, src, h1, h2, h3, h4, rfl, h6, rfl, rfl⟩ := State.fillPad_ok hf
          by_cases hki : k + 1 = i
          · subst hki
            simp only [List.length_set] at hib
            rw [List.getElem?_set_self hib] at hd
            cases hd
            simp [Booked.Directive.withPostings] at hv
          · rw [List.getElem?_set_ne hki] at hd
            exact old d hd hv rfl
      · exact old d hd hv rfl
      · exact old d hd hv rfl
      · exact old d hd hv rfl
      · exact old d hd hv rfl
    · rw [List.append_assoc, List.getElem?_append_right (by omega)] at hd
      cases v2 with
      | none =>
        simp only [Option.map_none, Option.toList_none, List.append_nil] at hd
        have hi0 : i - bk.length = 0 := by
          by_contra hne
          rw [List.getElem?_eq_none (by simp; omega)] at hd
          cases hd
        rw [hi0] at hd
        simp only [List.getElem?_cons_zero, Option.some.injEq] at hd
        subst hd
        simp only [mkBooked] at hv
        subst hv
        rcases State.directive_ok hdir with ⟨t, _, ht, -, rfl⟩ | ⟨b, hvb, hb, -⟩ | ⟨op, _, ho, -, rfl⟩ |
          ⟨cl, _, hc, -, rfl⟩ | ⟨p, v', _, hp', h, rfl⟩ | ⟨hpl, -, -, rfl⟩
        · obtain ⟨q, -, -, -, h⟩ := State.transaction_ok ht
          cases h
        · obtain ⟨y, hop, hy, -, ⟨-, -, h, rfl⟩ | ⟨m, -, hyp, -, h, rfl⟩ | ⟨m, k, e0, -, hyp, hf⟩⟩ := State.balance_ok hb
          · simp only [Booked.Variant.balance.injEq] at h
            exact new rfl (by omega) rfl (by rw [hvb, h]) rfl
          · simp only [Booked.Variant.balance.injEq] at h
            exact new rfl (by omega) rfl (by rw [hvb, h]) rfl
          · obtain ⟨d1, p, d2, t, src, h1, h2, h3, h4, rfl, h6, rfl, h⟩ := State.fillPad_ok hf
            simp only [Booked.Variant.balance.injEq] at h
            exact new (by simp) (by omega) rfl (by rw [hvb, h]) rfl
        · exact absurd (State.opn_ok ho).2.2.1 (by simp)
        · exact absurd (State.close_ok hc).2.2.1 (by simp)
        · cases h
        · revert hpl; cases raw.variant <;> simp [plainVariant]
      | some v2 =>
        rcases State.directive_ok hdir with ⟨t, _, ht, h, rfl⟩ | ⟨b, hvb, hb, h⟩ | ⟨op, _, ho, h, rfl⟩ |
          ⟨cl, _, hc, h, rfl⟩ | ⟨p, v', _, hp', h, rfl⟩ | ⟨hpl, -, h, rfl⟩
        · cases h
        · cases h
        · cases h
        · cases h
        · obtain ⟨y, -, -, -, -, rfl, rfl⟩ := State.pad_ok hp'
          cases h
          simp only [Option.map_some, Option.toList_some, List.cons_append, List.nil_append] at hd
          rcases hj : i - r.booked.length with _ | _ | k
          · rw [hj] at hd; simp only [List.getElem?_cons_zero, Option.some.injEq] at hd
            subst hd; simp [mkBooked] at hv
          · rw [hj] at hd; simp only [Nat.zero_add, List.getElem?_cons_succ, List.getElem?_cons_zero, Option.some.injEq] at hd
            subst hd; simp [mkBooked] at hv
          · rw [hj] at hd; simp at hd
        · cases h
  obtain ⟨ds1, raw, ds2, r1, rfl, k1, k2, k3, k4⟩ := key ds r h he i d hd bb hv
  obtain ⟨r1', r2, l1, l2, l3, l4⟩ := loop_split h
  rw [k1] at l1
  cases l1
  exact ⟨ds1, raw, ds2, r1, r2, rfl, k1, l2, l3, l4, k2, k3, k4⟩

end Limabean
