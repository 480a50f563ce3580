/-
The structural invariant of the accumulator.
-/
import Verif.Proofs.Step

namespace Limabean

variable {L : BookLib}

/-- A pending pad `(i, e)` of account `a`: the booked directives have that pad at position `i`, followed by its
generated transaction without postings. -/
def PadAt (bk : List Booked.Directive) (a : Str) (i : Nat) (e : ElementIdx) : Prop :=
  ∃ d p d2 t, bk[i]? = some d ∧ d.variant = .pad p ∧ p.acc = a ∧ e = { directive := d.idx } ∧
    bk[i+1]? = some d2 ∧ d2.variant = .transaction t ∧ t.postings = [] ∧ d2.idx = d.idx

theorem PadAt.append {bk : List Booked.Directive} {a : Str} {i : Nat} {e : ElementIdx} (h : PadAt bk a i e)
    (x : List Booked.Directive) : PadAt (bk ++ x) a i e := by
  obtain ⟨d, p, d2, t, h1, h2, h3, h4, h5, h6⟩ := h
  refine ⟨d, p, d2, t, ?_, h2, h3, h4, ?_, h6⟩
  · obtain ⟨hl, _⟩ := List.getElem?_eq_some_iff.1 h1
    rw [List.getElem?_append_left hl]; exact h1
  · obtain ⟨hl, _⟩ := List.getElem?_eq_some_iff.1 h5
    rw [List.getElem?_append_left hl]; exact h5

theorem PadAt.set {bk : List Booked.Directive} {a a' : Str} {i j : Nat} {e e' : ElementIdx} (h : PadAt bk a' j e')
    (hi : PadAt bk a i e) (hne : a ≠ a') (x : Booked.Directive) : PadAt (bk.set (i+1) x) a' j e' := by
  obtain ⟨d, p, d2, t, h1, h2, h3, h4, h5, h6⟩ := h
  obtain ⟨f, q, f2, u, g1, g2, g3, g4, g5, g6, g7, g8⟩ := hi
  have hij : i ≠ j := by
    intro hij
    subst hij
    rw [h1] at g1
    cases g1
    rw [h2] at g2
    cases g2
    exact hne (g3.symm.trans h3)
  have hij1 : i + 1 ≠ j := by
    intro hij
    subst hij
    rw [h1] at g5
    cases g5
    rw [h2] at g6
    cases g6
  refine ⟨d, p, d2, t, ?_, h2, h3, h4, ?_, h6⟩
  · rw [List.getElem?_set_ne hij1]; exact h1
  · rw [List.getElem?_set_ne (by omega)]; exact h5

/-- The structural invariant of the state after `n` directives, given the booked directives so far. -/
structure StInv (n : Nat) (bk : List Booked.Directive) (st : State L) : Prop where
  wfA : AMap.WF st.accounts
  wfO : AMap.WF st.opened
  wfC : AMap.WF st.closed
  openAcc : ∀ a e, st.opened.get a = some e → ∃ x, st.accounts.get a = some x
  closedAcc : ∀ a e, st.closed.get a = some e → ∃ x, st.accounts.get a = some x
  acc : ∀ a x, st.accounts.get a = some x → (∃ e, st.opened.get a = some e) ∨ (∃ e, st.closed.get a = some e)
  pad : ∀ a x i e, st.accounts.get a = some x → x.pad = some (i, e) → PadAt bk a i e
  window : ∀ a x w, st.accounts.get a = some x → x.window = some w → w.start ≤ w.stop ∧ w.stop ≤ bk.length
  idxO : ∀ a e, st.opened.get a = some e → e.posting = none ∧ e.directive < n
  idxC : ∀ a e, st.closed.get a = some e → e.posting = none ∧ e.directive < n
  idxA : ∀ a x, st.accounts.get a = some x → x.opened.posting = none ∧ x.opened.directive < n
  idxB : ∀ d ∈ bk, d.idx < n

theorem StInv.init : StInv 0 [] ({} : State L) where
  wfA := AMap.WF_nil
  wfO := AMap.WF_nil
  wfC := AMap.WF_nil
  openAcc := by simp
  closedAcc := by simp
  acc := by simp
  pad := by simp
  window := by simp
  idxO := by simp
  idxC := by simp
  idxA := by simp
  idxB := by simp

theorem StInv.mono {n n' : Nat} {bk : List Booked.Directive} {st : State L} (h : StInv n bk st) (hn : n ≤ n')
    (x : List Booked.Directive) (hx : ∀ d ∈ x, d.idx < n') : StInv n' (bk ++ x) st where
  wfA := h.wfA
  wfO := h.wfO
  wfC := h.wfC
  openAcc := h.openAcc
  closedAcc := h.closedAcc
  acc := h.acc
  pad := fun a y i e h1 h2 => (h.pad a y i e h1 h2).append x
  window := fun a y w h1 h2 => ⟨(h.window a y w h1 h2).1, by
    have := (h.window a y w h1 h2).2; simp; omega⟩
  idxO := fun a e h1 => ⟨(h.idxO a e h1).1, by have := (h.idxO a e h1).2; omega⟩
  idxC := fun a e h1 => ⟨(h.idxC a e h1).1, by have := (h.idxC a e h1).2; omega⟩
  idxA := fun a e h1 => ⟨(h.idxA a e h1).1, by have := (h.idxA a e h1).2; omega⟩
  idxB := by
    intro d hd
    rw [List.mem_append] at hd
    rcases hd with hd | hd
    · have := h.idxB d hd; omega
    · exact hx d hd

theorem StInv.mono' {n n' : Nat} {bk : List Booked.Directive} {st : State L} (h : StInv n bk st) (hn : n ≤ n') :
    StInv n' bk st := by
  simpa using h.mono hn [] (by simp)

theorem StInv.sameMeta {n : Nat} {bk : List Booked.Directive} {st st' : State L} (h : StInv n bk st)
    (hs : SameMeta st st') : StInv n bk st' where
  wfA := by unfold AMap.WF; rw [hs.keys]; exact h.wfA
  wfO := by rw [hs.opened]; exact h.wfO
  wfC := by rw [hs.closed]; exact h.wfC
  openAcc := by
    intro a e he
    rw [hs.opened] at he
    obtain ⟨x, hx⟩ := h.openAcc a e he
    obtain ⟨y, hy, _⟩ := hs.forward hx
    exact ⟨y, hy⟩
  closedAcc := by
    intro a e he
    rw [hs.closed] at he
    obtain ⟨x, hx⟩ := h.closedAcc a e he
    obtain ⟨y, hy, _⟩ := hs.forward hx
    exact ⟨y, hy⟩
  acc := by
    intro a x hx
    obtain ⟨y, hy, _⟩ := hs.accounts a x hx
    rw [hs.opened, hs.closed]
    exact h.acc a y hy
  pad := by
    intro a x i e hx hp
    obtain ⟨y, hy, hm⟩ := hs.accounts a x hx
    exact h.pad a y i e hy (by rw [← hm.pad]; exact hp)
  window := by
    intro a x w hx hp
    obtain ⟨y, hy, hm⟩ := hs.accounts a x hx
    exact h.window a y w hy (by rw [← hm.window]; exact hp)
  idxO := by rw [hs.opened]; exact h.idxO
  idxC := by rw [hs.closed]; exact h.idxC
  idxA := by
    intro a x hx
    obtain ⟨y, hy, hm⟩ := hs.accounts a x hx
    rw [hm.opened]
    exact h.idxA a y hy
  idxB := h.idxB

/-- Replacing an existing account. -/
theorem StInv.setAccount {n : Nat} {bk : List Booked.Directive} {st : State L} (h : StInv n bk st)
    {a : Str} {x y : Account L} (hx : st.accounts.get a = some x) (ho : y.opened = x.opened)
    (hp : ∀ i e, y.pad = some (i, e) → PadAt bk a i e)
    (hw : ∀ w, y.window = some w → w.start ≤ w.stop ∧ w.stop ≤ bk.length) : StInv n bk (st.setAccount a y) where
  wfA := AMap.WF_set h.wfA _ _
  wfO := h.wfO
  wfC := h.wfC
  openAcc := by
    intro b e he
    by_cases hb : a = b
    · subst hb; exact ⟨y, by simp [State.setAccount, AMap.get_set]⟩
    · obtain ⟨z, hz⟩ := h.openAcc b e he
      exact ⟨z, by simpa [State.setAccount, AMap.get_set, hb] using hz⟩
  closedAcc := by
    intro b e he
    by_cases hb : a = b
    · subst hb; exact ⟨y, by simp [State.setAccount, AMap.get_set]⟩
    · obtain ⟨z, hz⟩ := h.closedAcc b e he
      exact ⟨z, by simpa [State.setAccount, AMap.get_set, hb] using hz⟩
  acc := by
    intro b z hz
    by_cases hb : a = b
    · subst hb; exact h.acc a x hx
    · exact h.acc b z (by simpa [State.setAccount, AMap.get_set, hb] using hz)
  pad := by
    intro b z i e hz hpz
    by_cases hb : a = b
    · subst hb
      simp only [State.setAccount, AMap.get_set, if_true, Option.some.injEq] at hz
      subst hz
      exact hp i e hpz
    · exact h.pad b z i e (by simpa [State.setAccount, AMap.get_set, hb] using hz) hpz
  window := by
    intro b z w hz hpz
    by_cases hb : a = b
    · subst hb
      simp only [State.setAccount, AMap.get_set, if_true, Option.some.injEq] at hz
      subst hz
      exact hw w hpz
    · exact h.window b z w (by simpa [State.setAccount, AMap.get_set, hb] using hz) hpz
  idxO := h.idxO
  idxC := h.idxC
  idxA := by
    intro b z hz
    by_cases hb : a = b
    · subst hb
      simp only [State.setAccount, AMap.get_set, if_true, Option.some.injEq] at hz
      subst hz
      rw [ho]
      exact h.idxA a x hx
    · exact h.idxA b z (by simpa [State.setAccount, AMap.get_set, hb] using hz)
  idxB := h.idxB

theorem StInv.advance {n : Nat} {bk : List Booked.Directive} {st : State L} (h : StInv n bk st)
    {a : Str} {x : Account L} (hx : st.accounts.get a = some x) :
    ∀ w, (x.advance bk.length).window = some w → w.start ≤ w.stop ∧ w.stop ≤ bk.length := by
  intro w hw
  simp only [Account.advance, Option.some.injEq] at hw
  subst hw
  refine ⟨?_, le_refl _⟩
  cases hxw : x.window with
  | none => simp
  | some w => simpa using (h.window a x w hx hxw).2

/-- Filling a pad when no account still refers to it. -/
theorem StInv.fill {n : Nat} {bk : List Booked.Directive} {st : State L} (h : StInv n bk st)
    {a : Str} {i : Nat} {e : ElementIdx} (hi : PadAt bk a i e)
    (hno : ∀ x, st.accounts.get a = some x → x.pad = none) {d2 : Booked.Directive} (hd2 : bk[i+1]? = some d2)
    (t : Booked.Transaction) (ps : List Booked.Posting) :
    StInv n (bk.set (i+1) (d2.withPostings t ps)) st where
  wfA := h.wfA
  wfO := h.wfO
  wfC := h.wfC
  openAcc := h.openAcc
  closedAcc := h.closedAcc
  acc := h.acc
  pad := by
    intro b z j f hz hpz
    have hne : a ≠ b := by
      intro hab
      subst hab
      rw [hno z hz] at hpz
      cases hpz
    exact (h.pad b z j f hz hpz).set hi hne _
  window := by
    intro b z w hz hw
    simpa using h.window b z w hz hw
  idxO := h.idxO
  idxC := h.idxC
  idxA := h.idxA
  idxB := by
    intro d hd
    rcases List.mem_or_eq_of_mem_set hd with hd | hd
    · exact h.idxB d hd
    · subst hd
      exact h.idxB d2 (List.mem_of_getElem? hd2)

theorem StInv.opn {n : Nat} {bk : List Booked.Directive} {st st' : State L} (h : StInv n bk st) (env : Env L)
    {o : Raw.Open} {v : Booked.Variant} (ho : st.opn env o { directive := n } = .ok st' v) : StInv (n+1) bk st' := by
  obtain ⟨h1, h2, -, h3, h4, h5⟩ := State.opn_ok ho
  have hnone : st.accounts.get o.acc = none := by
    cases hx : st.accounts.get o.acc with
    | none => rfl
    | some x =>
      rcases h.acc _ x hx with ⟨e, he⟩ | ⟨e, he⟩
      · simp [h1] at he
      · simp [h2] at he
  refine ⟨?_, ?_, ?_, ?_, ?_, ?_, ?_, ?_, ?_, ?_, ?_, ?_⟩
  · rw [h5]; exact AMap.WF_set h.wfA _ _
  · rw [h3]; exact AMap.WF_set h.wfO _ _
  · rw [h4]; exact h.wfC
  · intro a e he
    rw [h3, AMap.get_set] at he
    rw [h5, AMap.get_set]
    split at he
    · rename_i hab; simp [hab]
    · rename_i hab
      simp only [hab, if_false]
      exact h.openAcc a e he
  · intro a e he
    rw [h4] at he
    rw [h5, AMap.get_set]
    split
    · simp
    · exact h.closedAcc a e he
  · intro a x hx
    rw [h5, AMap.get_set] at hx
    rw [h3, h4, AMap.get_set]
    split at hx
    · rename_i hab; simp [hab]
    · rename_i hab
      simp only [hab, if_false]
      exact h.acc a x hx
  · intro a x i e hx hp
    rw [h5, AMap.get_set] at hx
    split at hx
    · cases hx; simp [Account.new] at hp
    · exact h.pad a x i e hx hp
  · intro a x w hx hp
    rw [h5, AMap.get_set] at hx
    split at hx
    · cases hx; simp [Account.new] at hp
    · exact h.window a x w hx hp
  · intro a e he
    rw [h3, AMap.get_set] at he
    split at he
    · cases he; simp
    · have := h.idxO a e he; exact ⟨this.1, by omega⟩
  · intro a e he
    rw [h4] at he
    have := h.idxC a e he; exact ⟨this.1, by omega⟩
  · intro a x hx
    rw [h5, AMap.get_set] at hx
    split at hx
    · cases hx; simp [Account.new]
    · have := h.idxA a x hx; exact ⟨this.1, by omega⟩
  · intro d hd
    have := h.idxB d hd; omega

theorem StInv.opnErr {n : Nat} {bk : List Booked.Directive} {st st' : State L} (h : StInv n bk st) (env : Env L)
    {o : Raw.Open} {x : IndexedReport} (ho : st.opn env o { directive := n } = .err st' x) : StInv (n+1) bk st' := by
  have h' := h.mono' (Nat.le_succ n)
  rcases State.opn_err ho with ⟨p, -, rfl, -⟩ | ⟨c, h1, h2, rfl, -⟩
  · exact h'
  · refine { h' with wfO := AMap.WF_set h.wfO _ _, openAcc := ?_, acc := ?_, idxO := ?_ }
    · intro a e he
      simp only [AMap.get_set] at he
      split at he
      · rename_i hab; subst hab; exact h.closedAcc _ _ h2
      · exact h.openAcc a e he
    · intro a x hx
      simp only [AMap.get_set]
      rcases h.acc a x hx with he | he
      · left
        split
        · simp
        · exact he
      · exact Or.inr he
    · intro a e he
      simp only [AMap.get_set] at he
      split at he
      · cases he; simp
      · exact h'.idxO a e he

theorem StInv.close {n : Nat} {bk : List Booked.Directive} {st st' : State L} (h : StInv n bk st)
    {c : Raw.Close} {v : Booked.Variant} (ho : st.close c { directive := n } = .ok st' v) : StInv (n+1) bk st' := by
  have h' := h.mono' (Nat.le_succ n)
  obtain ⟨⟨p, h1⟩, h2, -, rfl⟩ := State.close_ok ho
  refine { h' with wfO := AMap.WF_del h.wfO _, wfC := AMap.WF_set h.wfC _ _, openAcc := ?_, closedAcc := ?_,
                   acc := ?_, idxO := ?_, idxC := ?_ }
  · intro a e he
    simp only [AMap.get_del h.wfO] at he
    split at he
    · cases he
    · exact h.openAcc a e he
  · intro a e he
    simp only [AMap.get_set] at he
    split at he
    · rename_i hab; subst hab; exact h.openAcc _ _ h1
    · exact h.closedAcc a e he
  · intro a x hx
    simp only [AMap.get_del h.wfO, AMap.get_set]
    by_cases hab : c.acc = a
    · simp [hab]
    · simp only [hab, if_false]
      exact h.acc a x hx
  · intro a e he
    simp only [AMap.get_del h.wfO] at he
    split at he
    · cases he
    · exact h'.idxO a e he
  · intro a e he
    simp only [AMap.get_set] at he
    split at he
    · cases he; simp
    · exact h'.idxC a e he

/-- A successfully booked balance. -/
theorem StInv.balance {n : Nat} {bk bk' : List Booked.Directive} {st st' : State L} (h : StInv n bk st) {env : Env L}
    {b : Raw.Balance} {e : ElementIdx} {v : Booked.Variant} (hb : st.balance env b e bk = .ok st' (v, bk')) :
    StInv n bk' st' := by
  obtain ⟨a, ho, ha, hc, hcase⟩ := State.balance_ok hb
  have hw := h.advance ha
  rcases hcase with ⟨hm, rfl, -, rfl⟩ | ⟨m, hm, hp, rfl, -, rfl⟩ | ⟨m, i, e0, hm, hp, hf⟩
  · exact h.setAccount ha rfl (by simp [Account.advance]) hw
  · exact h.setAccount ha rfl (by simp [Account.advance, Account.adjustAdd]) hw
  · have hr : StInv n bk (st.resetTo b a m bk.length) :=
      h.setAccount ha rfl (by simp [Account.advance, Account.adjustAdd]) hw
    obtain ⟨d, p, d2, t, src, h1, h2, h3, h4, rfl, h6, rfl, -⟩ := State.fillPad_ok hf
    have hpad := h.pad _ _ _ _ ha hp
    have hr2 := hr.fill hpad (by
      intro x hx
      simp only [State.resetTo, State.setAccount, AMap.get_set, if_true, Option.some.injEq] at hx
      subst hx
      rfl) h3 t (calculateBalancePadPostings b.cur m b.acc p.source)
    exact hr2.sameMeta (SameMeta.setAccount h6 ⟨rfl, rfl, rfl, rfl, rfl⟩)

theorem PadAt.new (bk : List Booked.Directive) (n : Nat) (raw : Raw.Directive) (p : Raw.Pad) :
    PadAt (bk ++ [mkBooked n raw (.pad p), mkBooked n raw (.transaction { flag := padFlag, postings := [] })])
      p.acc bk.length { directive := n } := by
  refine ⟨mkBooked n raw (.pad p), p, mkBooked n raw (.transaction { flag := padFlag, postings := [] }), _,
    ?_, rfl, rfl, rfl, ?_, rfl, rfl, rfl⟩
  · simp
  · rw [List.getElem?_append_right (by omega)]
    simp

/-- The structural invariant holds after every step. -/
theorem StInv.step {n : Nat} {env : Env L} {raw : Raw.Directive} {r r' : Run L}
    (h : StInv n r.booked r.st) (hs : r.step env n raw = some r') : StInv (n+1) r'.booked r'.st := by
  have hnew : ∀ v, ∀ d ∈ [mkBooked n raw v], d.idx < n + 1 := by simp [mkBooked]
  rcases Run.step_some hs with ⟨st', x, hd, rfl⟩ | ⟨st', v, v2, bk, errs, hd, -, rfl⟩
  · simp only
    rcases State.directive_err hd with ⟨t, -, ht⟩ | ⟨b, -, hb⟩ | ⟨o, -, ho⟩ | ⟨c, -, hc⟩ | ⟨p, -, hp⟩
    · rcases State.transaction_err ht with ⟨rfl, -⟩ | ⟨rfl, -⟩ | ⟨q, -, ⟨rfl, -⟩ | ⟨-, hi⟩⟩
      · exact h.mono' (Nat.le_succ n)
      · exact h.mono' (Nat.le_succ n)
      · exact h.mono' (Nat.le_succ n)
      · exact (h.sameMeta (State.installInventory_sameMeta (Or.inr ⟨_, hi⟩))).mono' (Nat.le_succ n)
    · rw [(State.balance_err hb).1]
      exact h.mono' (Nat.le_succ n)
    · exact h.opnErr env ho
    · rw [(State.close_err hc).1]
      exact h.mono' (Nat.le_succ n)
    · rcases State.pad_err hp with ⟨rfl, -⟩ | ⟨a, j, u, -, ha, -, rfl, -⟩
      · exact h.mono' (Nat.le_succ n)
      · exact (h.setAccount (y := { a with pad := none }) ha rfl (by intro i e hie; cases hie) (fun w hw => h.window _ _ w ha hw)).mono' (Nat.le_succ n)
  · simp only
    rcases State.directive_ok hd with ⟨t, -, ht, rfl, rfl⟩ | ⟨b, -, hb, rfl⟩ | ⟨o, -, ho, rfl, rfl⟩ |
      ⟨c, -, hc, rfl, rfl⟩ | ⟨p, v', -, hp, rfl, rfl⟩ | ⟨-, rfl, rfl, rfl⟩
    · obtain ⟨q, -, -, hi, -⟩ := State.transaction_ok ht
      simpa using (h.sameMeta (State.installInventory_sameMeta (Or.inl hi))).mono (Nat.le_succ n) _ (hnew v)
    · simpa using (h.balance hb).mono (Nat.le_succ n) _ (hnew v)
    · simpa using (h.opn env ho).mono (le_refl _) _ (hnew v)
    · simpa using (h.close hc).mono (le_refl _) _ (hnew v)
    · obtain ⟨a, -, ha, hpn, rfl, rfl, rfl⟩ := State.pad_ok hp
      have h1 := h.mono (Nat.le_succ n)
        [mkBooked n raw (.pad p), mkBooked n raw (.transaction { flag := padFlag, postings := [] })]
        (by simp [mkBooked])
      have h2 := h1.setAccount (y := { a with pad := some (r.booked.length, { directive := n }) }) ha rfl
        (by
          intro i e hie
          simp only [Option.some.injEq, Prod.mk.injEq] at hie
          obtain ⟨rfl, rfl⟩ := hie
          exact PadAt.new _ _ _ _)
        (fun w hw => h1.window _ _ w ha hw)
      simpa using h2
    · simpa using h.mono (Nat.le_succ n) _ (hnew v)

/-- The structural invariant holds at the end of every run that does not panic. -/
theorem StInv.loop {env : Env L} {ds : List Raw.Directive} {r : Run L} (h : Run.loop env 0 ds {} = some r) :
    StInv ds.length r.booked r.st := by
  refine Run.loop_induction env (fun pre r => StInv pre.length r.booked r.st) StInv.init ?_ h
  intro pre raw r r' hp hs
  simpa using hp.step hs

end Limabean
