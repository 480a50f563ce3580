/-
The accumulator returns exactly what `Spec.Output` says.
-/
import Verif.Spec.Output
import Verif.Proofs.FaultLemmas

namespace Limabean

open Spec

variable {L : BookLib}

theorem lotPostings_eq (i : Nat) (ip : Interpolated) (p : Raw.PostingSpec) :
    bookedPostingsOf i ip p = lotPostings i ip p := by
  unfold bookedPostingsOf lotPostings
  cases ip.cost <;> rfl

theorem postingsFor_eq (i : Nat) (zs : List (Interpolated × Raw.PostingSpec)) :
    bookedPostings i zs = (zs.zipIdx i).flatMap fun z => lotPostings z.2 z.1.1 z.1.2 := by
  induction zs generalizing i with
  | nil => rfl
  | cons z zs ih =>
    obtain ⟨ip, p⟩ := z
    simp only [bookedPostings, List.zipIdx_cons, List.flatMap_cons, lotPostings_eq, ih]

/-! ### Filling in -/

theorem fillIn_idx (F : List (Nat × List Booked.Posting)) (d : Booked.Directive) : (fillIn F d).idx = d.idx := by
  unfold fillIn
  split <;> rfl

theorem fillIn_other (F : List (Nat × List Booked.Posting)) {d : Booked.Directive} (h : ∀ f ∈ F, f.1 ≠ d.idx) :
    fillIn F d = d := by
  unfold fillIn
  rw [List.find?_eq_none.2 (by simpa using h)]
  cases d.variant <;> rfl

theorem fillIn_snoc_ne (F : List (Nat × List Booked.Posting)) {k : Nat} (ps : List Booked.Posting) {d : Booked.Directive}
    (h : k ≠ d.idx) : fillIn (F ++ [(k, ps)]) d = fillIn F d := by
  unfold fillIn
  rw [List.find?_append]
  have : ([(k, ps)] : List (Nat × List Booked.Posting)).find? (fun f => f.1 = d.idx) = none := by simp [h]
  rw [this, Option.or_none]

/-- Whether a booked directive is a transaction. -/
def isTxn (d : Booked.Directive) : Prop := ∃ t, d.variant = .transaction t

theorem fillIn_not (F : List (Nat × List Booked.Posting)) {d : Booked.Directive} (h : ¬ isTxn d) : fillIn F d = d := by
  unfold fillIn
  split
  · rename_i t _ h1 _
    exact absurd ⟨t, h1⟩ h
  · rfl

theorem fillIn_txn (F : List (Nat × List Booked.Posting)) (d : Booked.Directive) : isTxn (fillIn F d) ↔ isTxn d := by
  unfold fillIn
  split
  · rename_i t f h1 _
    exact ⟨fun _ => ⟨t, h1⟩, fun _ => ⟨_, rfl⟩⟩
  · rfl

/-- No two transactions have the same number. -/
def OneTxn (B : List Booked.Directive) : Prop :=
  ∀ (i j : Nat) d d', B[i]? = some d → B[j]? = some d' → isTxn d → isTxn d' → d.idx = d'.idx → i = j

theorem fillIn_set {B : List Booked.Directive} {F : List (Nat × List Booked.Posting)} (hB : OneTxn B) {i : Nat}
    {d : Booked.Directive} {t : Booked.Transaction} (hi : (B.map (fillIn F))[i]? = some d)
    (ht : d.variant = .transaction t) (hF : ∀ f ∈ F, f.1 ≠ d.idx) (ps : List Booked.Posting) :
    (B.map (fillIn F)).set i (d.withPostings t ps) = B.map (fillIn (F ++ [(d.idx, ps)])) := by
  rw [List.getElem?_map] at hi
  cases hb : B[i]? with
  | none => simp [hb] at hi
  | some b =>
    simp only [hb, Option.map_some, Option.some.injEq] at hi
    have hid : d.idx = b.idx := by rw [← hi, fillIn_idx]
    have hbd : b = d := by rw [← hi, fillIn_other F (by rw [← hid]; exact hF)]
    subst hbd
    apply List.ext_getElem?
    intro j
    by_cases hj : i = j
    · subst hj
      obtain ⟨hl, -⟩ := List.getElem?_eq_some_iff.1 hb
      rw [List.getElem?_set_self (by simpa using hl), List.getElem?_map, hb, Option.map_some]
      congr 1
      unfold fillIn Booked.Directive.withPostings
      rw [List.find?_append, List.find?_eq_none.2 (by simpa using hF)]
      simp [ht]
    · rw [List.getElem?_set_ne hj, List.getElem?_map, List.getElem?_map]
      cases hc : B[j]? with
      | none => rfl
      | some c =>
        simp only [Option.map_some, Option.some.injEq]
        by_cases hct : isTxn c
        · rw [fillIn_snoc_ne]
          intro hk
          exact hj (hB i j b c hb hc ⟨t, ht⟩ hct hk)
        · rw [fillIn_not _ hct, fillIn_not _ hct]

theorem variants_one (option : Option Booking) (tol : Tolerance) (s : Tally L) (n : Nat) (d : Raw.Directive) :
    OneTxn (s.emits option tol n d) := by
  have one : ∀ v, OneTxn ([v].map fun v =>
      ({ idx := n, date := d.date, tags := d.tags, links := d.links, metadata := d.metadata,
         variant := v } : Booked.Directive)) := by
    intro v i j x y hx hy _ _ _
    obtain ⟨h1, -⟩ := List.getElem?_eq_some_iff.1 hx
    obtain ⟨h2, -⟩ := List.getElem?_eq_some_iff.1 hy
    simp at h1 h2
    omega
  unfold Tally.emits Tally.variants
  cases d.variant with
  | transaction t =>
    simp only
    split
    · exact one _
    · intro i j x y hx; simp at hx
  | pad p =>
    intro i j x y hx hy h1 h2 _
    have key : ∀ (i : Nat) (x : Booked.Directive), (([.pad p, .transaction { flag := str% "'P", postings := [] }] : List Booked.Variant).map fun v =>
        ({ idx := n, date := d.date, tags := d.tags, links := d.links, metadata := d.metadata,
           variant := v } : Booked.Directive))[i]? = some x → isTxn x → i = 1 := by
      intro i x hx ht
      match i, hx with
      | 0, hx =>
        simp only [List.map_cons, List.getElem?_cons_zero, Option.some.injEq] at hx
        obtain ⟨t, ht⟩ := ht
        rw [← hx] at ht
        cases ht
      | 1, _ => rfl
      | i + 2, hx => simp at hx
    rw [key i x hx h1, key j y hy h2]
  | _ => exact one _

theorem emits_idx {option : Option Booking} {tol : Tolerance} {s : Tally L} {n : Nat} {d : Raw.Directive}
    {x : Booked.Directive} (h : x ∈ s.emits option tol n d) : x.idx = n := by
  unfold Tally.emits at h
  rw [List.mem_map] at h
  obtain ⟨v, -, rfl⟩ := h
  rfl

theorem OneTxn.append {B X : List Booked.Directive} {n : Nat} (hB : OneTxn B) (hX : OneTxn X) (h1 : ∀ d ∈ B, d.idx < n)
    (h2 : ∀ d ∈ X, d.idx = n) : OneTxn (B ++ X) := by
  intro i j d d' hi hj ht ht' hd
  rw [List.getElem?_append] at hi hj
  split at hi <;> split at hj
  · exact hB i j d d' hi hj ht ht' hd
  · have := h1 d (List.mem_of_getElem? hi)
    have := h2 d' (List.mem_of_getElem? hj)
    omega
  · have := h2 d (List.mem_of_getElem? hi)
    have := h1 d' (List.mem_of_getElem? hj)
    omega
  · have := hX _ _ d d' hi hj ht ht' hd
    omega

/-! ### One step -/

theorem Tal.pendingAt {opt : Option Booking} {bk : List Booked.Directive} {st : State L} {s : Tally L}
    (ht : Tal opt bk st s) {a : Str} {x : Account L} (hx : st.accounts.get a = some x) :
    PadIs bk x.pad (s.pending a) := by
  have := ht.at_ a
  rw [hx] at this
  generalize st.opened.get a = op at this
  generalize st.closed.get a = cl at this
  generalize s.terms a = tm at this
  generalize s.standing a = sd at this
  generalize s.held a = hl at this
  generalize s.pending a = pd at this
  cases this with
  | known _ _ h => exact h

/-- What a directive without fault adds to the output. -/
theorem outputs_step (hL : L.Lawful) {order : AMap Str (Account L) → AMap Str (Account L)} {o : BookOptions}
    (hf : (envOf L o order).Fair) {n : Nat} {raw : Raw.Directive} {r r' : Run L} {s : Tally L}
    (hi : StInv n r.booked r.st) (ht : Tal o.bookingMethod r.booked r.st s)
    (hr : r.step (envOf L o order) n raw = some r') (he : r'.errors = r.errors) :
    r'.st.warnings = r.st.warnings ++ warns L n raw ∧
    ((s.fills o.tolerance raw = none ∧ r'.booked = r.booked ++ s.emits o.bookingMethod o.tolerance n raw) ∨
     (∃ b k src i d2 t ps, raw.variant = .balance b ∧ s.pending b.acc = some (k, src) ∧
       s.fills o.tolerance raw = some (k, ps) ∧ r.booked[i]? = some d2 ∧ d2.variant = .transaction t ∧ d2.idx = k ∧
       r'.booked = r.booked.set i (d2.withPostings t ps) ++ s.emits o.bookingMethod o.tolerance n raw)) := by
  rcases Run.step_some hr with ⟨st', x, -, rfl⟩ | ⟨st', v, v2, bk, errs, hd, hb, rfl⟩
  · simp at he
  have herrs : errs = [] := by simpa using he
  subst herrs
  simp only
  unfold State.directive at hd
  unfold Tally.emits Tally.variants Tally.fills warns
  cases hv : raw.variant with
  | transaction t =>
    simp only [hv] at hd ⊢
    cases htx : r.st.transaction (envOf L o order) t raw.date { directive := n } with
    | err _ _ => simp [htx, Res.plain] at hd
    | panic => simp [htx, Res.plain] at hd
    | ok st1 v1 =>
      simp only [htx, Res.plain, Res.ok.injEq, Prod.mk.injEq] at hd
      obtain ⟨rfl, rfl, rfl, rfl⟩ := hd
      obtain ⟨q, h1, -, h3, h4⟩ := State.transaction_ok htx
      rw [ht.inventory, ht.method, show (envOf L o order).tolerance = o.tolerance from rfl] at h1
      refine ⟨by rw [(State.installInventory_sameMeta (Or.inl h3)).warnings]; simp, Or.inl ⟨trivial, ?_⟩⟩
      rw [h1, h4, postingsFor_eq]
      simp [mkBooked, postingsFor]
  | opn op =>
    simp only [hv] at hd ⊢
    cases htx : r.st.opn (envOf L o order) op { directive := n } with
    | err _ _ => simp [htx, Res.plain] at hd
    | panic => simp [htx, Res.plain] at hd
    | ok st1 v1 =>
      simp only [htx, Res.plain, Res.ok.injEq, Prod.mk.injEq] at hd
      obtain ⟨rfl, rfl, rfl, rfl⟩ := hd
      obtain ⟨h1, h2, h3, -⟩ := State.opn_ok htx
      refine ⟨?_, Or.inl ⟨trivial, by rw [h3]; simp [mkBooked]⟩⟩
      unfold State.opn at htx
      simp only [h1, h2, Res.ok.injEq] at htx
      rw [← htx.1]
      simp only [List.append_assoc, List.append_cancel_left_eq]
      have hdef : L.supported (envOf L o order).defaultBooking = true := by
        show L.supported (defaultBooking L o) = true
        unfold defaultBooking
        cases o.bookingMethod with
        | none => exact hL.supported_dflt
        | some b =>
          by_cases hb : L.supported b = true
          · simp [hb]
          · simp [hb, hL.supported_dflt]
      cases op.booking with
      | none => simp [hdef]
      | some b => by_cases hb : L.supported b = true <;> simp [hb, ElementIdx.report]
  | close c =>
    simp only [hv] at hd ⊢
    cases htx : r.st.close c { directive := n } with
    | err _ _ => simp [htx, Res.plain] at hd
    | panic => simp [htx, Res.plain] at hd
    | ok st1 v1 =>
      simp only [htx, Res.plain, Res.ok.injEq, Prod.mk.injEq] at hd
      obtain ⟨rfl, rfl, rfl, rfl⟩ := hd
      obtain ⟨-, -, h3, rfl⟩ := State.close_ok htx
      exact ⟨by simp, Or.inl ⟨trivial, by rw [h3]; simp [mkBooked]⟩⟩
  | pad p =>
    simp only [hv] at hd ⊢
    cases htx : r.st.pad p r.booked.length { directive := n } with
    | err _ _ => simp [htx] at hd
    | panic => simp [htx] at hd
    | ok st1 v1 =>
      obtain ⟨v1, v1'⟩ := v1
      simp only [htx, Res.ok.injEq, Prod.mk.injEq] at hd
      obtain ⟨rfl, rfl, rfl, rfl⟩ := hd
      obtain ⟨a, -, -, -, rfl, rfl, rfl⟩ := State.pad_ok htx
      refine ⟨by simp [State.setAccount], Or.inl ⟨trivial, ?_⟩⟩
      simp [mkBooked, padFlag]
  | balance b =>
    simp only [hv] at hd ⊢
    cases htx : r.st.balance (envOf L o order) b { directive := n } r.booked with
    | err _ _ => simp [htx] at hd
    | panic => simp [htx] at hd
    | ok st1 v1 =>
      obtain ⟨v1, bk1⟩ := v1
      simp only [htx, Res.ok.injEq, Prod.mk.injEq] at hd
      obtain ⟨rfl, rfl, rfl, rfl⟩ := hd
      obtain ⟨a, -, ha, -, hcase⟩ := State.balance_ok htx
      have hpad := ht.pendingAt ha
      rw [ht.margin hi.wfA hf rfl b] at hcase
      generalize b.units.sub (s.total b.acc b.cur) = gap at hcase ⊢
      rcases hcase with ⟨hm, rfl, rfl, rfl⟩ | ⟨m, hm, hp, rfl, rfl, rfl⟩ | ⟨m, i, e0, hm, hp, hfill⟩
      · have hgt : gap.abs.gt (toleranceDec o.tolerance.multiplier b) = false := by
          by_contra hc
          simp only [Bool.not_eq_false] at hc
          simp [hc] at hm
        have hap : a.pad = none := by
          cases hq : a.pad with
          | none => rfl
          | some q => simp [balanceErrors, hq] at hb
        rw [hgt, hap]
        refine ⟨by simp [State.setAccount], Or.inl ⟨rfl, by simp [mkBooked]⟩⟩
      · simp only [balanceErrors] at hb
        split at hb <;> simp at hb
      · have hgt : gap.abs.gt (toleranceDec o.tolerance.multiplier b) = true := by
          by_contra hc
          simp [hc] at hm
        rw [hgt] at hm
        simp only [if_true, Option.some.injEq] at hm
        subst hm
        obtain ⟨d, p, d2, t, src, g1, g2, g3, g4, g5, -, g7, g8⟩ := State.fillPad_ok hfill
        obtain ⟨d', p', d2', t', k1, k2, k3, k4, k5, k6, k7, k8⟩ := hi.pad _ _ _ _ ha hp
        rw [g1] at k1
        cases k1
        rw [g3] at k5
        cases k5
        rw [hp] at hpad
        generalize hpd : s.pending b.acc = pd at hpad
        cases hpad with
        | pending hsrc =>
          rename_i k src'
          have hs : src' = p.source := by
            unfold padSource at hsrc
            simp only [g1, g2] at hsrc
            cases hsrc
            rfl
          subst hs
          have hk : d.idx = k := by simpa using k4.symm
          refine ⟨by rw [g7]; simp [State.setAccount, State.resetTo], Or.inr ⟨b, k, p.source, i + 1, d2, t,
            calculateBalancePadPostings b.cur gap b.acc p.source, rfl, hpd, ?_, g3, g4, by rw [k8, hk], ?_⟩⟩
          · rw [hgt]
            rfl
          · rw [g5, g8]
            simp [mkBooked]
  | _ =>
    simp only [hv, Res.ok.injEq, Prod.mk.injEq] at hd ⊢
    obtain ⟨rfl, rfl, rfl, rfl⟩ := hd
    exact ⟨by simp, Or.inl ⟨trivial, by simp [mkBooked]⟩⟩

/-! ### All the steps -/

/-- Which pads are pending and which are filled. -/
structure FillInv (n : Nat) (s : Tally L) (F : List (Nat × List Booked.Posting)) : Prop where
  lt : ∀ a k src, s.pending a = some (k, src) → k < n
  inj : ∀ a a' k src src', s.pending a = some (k, src) → s.pending a' = some (k, src') → a = a'
  fresh : ∀ a k src, s.pending a = some (k, src) → ∀ f ∈ F, f.1 ≠ k
  filled : ∀ f ∈ F, f.1 < n

theorem FillInv.keep {n : Nat} {s s' : Tally L} {F : List (Nat × List Booked.Posting)} (h : FillInv n s F)
    (hs : ∀ a q, s'.pending a = some q → s.pending a = some q) : FillInv (n + 1) s' F where
  lt a k src hp := Nat.lt_succ_of_lt (h.lt a k src (hs _ _ hp))
  inj a a' k src src' hp hp' := h.inj a a' k src src' (hs _ _ hp) (hs _ _ hp')
  fresh a k src hp := h.fresh a k src (hs _ _ hp)
  filled f hf := Nat.lt_succ_of_lt (h.filled f hf)

theorem update_some {V : Type} {f : Str → Option V} {b a : Str} {x : Option V} {q : V}
    (h : Function.update f b x a = some q) : (a = b ∧ x = some q) ∨ (a ≠ b ∧ f a = some q) := by
  by_cases hab : a = b
  · subst hab
    rw [Function.update_self] at h
    exact Or.inl ⟨rfl, h⟩
  · rw [Function.update_of_ne hab] at h
    exact Or.inr ⟨hab, h⟩

theorem FillInv.step {option : Option Booking} {tol : Tolerance} {n : Nat} {s s' : Tally L} {d : Raw.Directive}
    {F : List (Nat × List Booked.Posting)} (h : FillInv n s F)
    (hs : s.step option tol n d = some (s', [])) : FillInv (n + 1) s' (F ++ (s.fills tol d).toList) := by
  have same : ∀ {s'' : Tally L}, s''.pending = s.pending → FillInv (n + 1) s'' F :=
    fun hp => h.keep fun a q hq => by rwa [hp] at hq
  have drop : ∀ {s'' : Tally L} (b : Str), s''.pending = Function.update s.pending b none → FillInv (n + 1) s'' F :=
    fun b hp => h.keep fun a q hq => by
      rw [hp] at hq
      rcases update_some hq with ⟨-, hq⟩ | ⟨-, hq⟩
      · cases hq
      · exact hq
  unfold Tally.step Tally.unchanged at hs
  unfold Tally.fills
  cases hv : d.variant with
  | opn o =>
    simp only [hv] at hs ⊢
    simp only [Option.toList_none, List.append_nil]
    split at hs <;> simp only [Option.some.injEq, Prod.mk.injEq] at hs <;> obtain ⟨rfl, -⟩ := hs <;> exact same rfl
  | close c =>
    simp only [hv] at hs ⊢
    simp only [Option.toList_none, List.append_nil]
    split at hs <;> simp only [Option.some.injEq, Prod.mk.injEq] at hs <;> obtain ⟨rfl, -⟩ := hs <;> exact same rfl
  | transaction t =>
    simp only [hv] at hs ⊢
    simp only [Option.toList_none, List.append_nil]
    split at hs
    · simp only [Option.some.injEq, Prod.mk.injEq] at hs; obtain ⟨rfl, -⟩ := hs; exact same rfl
    · split at hs <;> simp only [Option.some.injEq, Prod.mk.injEq] at hs <;> obtain ⟨rfl, -⟩ := hs <;> exact same rfl
  | pad p =>
    simp only [hv] at hs ⊢
    simp only [Option.toList_none, List.append_nil]
    split at hs
    · simp only [Option.some.injEq, Prod.mk.injEq] at hs; obtain ⟨rfl, -⟩ := hs; exact same rfl
    · simp only [Option.some.injEq, Prod.mk.injEq] at hs; obtain ⟨rfl, -⟩ := hs; exact drop _ rfl
    · simp only [Option.some.injEq, Prod.mk.injEq] at hs
      obtain ⟨rfl, -⟩ := hs
      refine ⟨?_, ?_, ?_, fun f hf => Nat.lt_succ_of_lt (h.filled f hf)⟩
      · intro a k src hp
        rcases update_some hp with ⟨-, hq⟩ | ⟨-, hq⟩
        · cases hq; omega
        · have := h.lt _ _ _ hq; omega
      · intro a a' k src src' hp hp'
        rcases update_some hp with ⟨ha, hq⟩ | ⟨ha, hq⟩ <;> rcases update_some hp' with ⟨ha', hq'⟩ | ⟨ha', hq'⟩
        · rw [ha, ha']
        · cases hq
          have := h.lt _ _ _ hq'
          omega
        · cases hq'
          have := h.lt _ _ _ hq
          omega
        · exact h.inj _ _ _ _ _ hq hq'
      · intro a k src hp f hf
        rcases update_some hp with ⟨-, hq⟩ | ⟨-, hq⟩
        · cases hq
          have := h.filled f hf
          omega
        · exact h.fresh _ _ _ hq f hf
  | balance b =>
    simp only [hv] at hs ⊢
    generalize b.units.sub (s.total b.acc b.cur) = gap at hs ⊢
    cases hu : s.usage b.acc b.cur with
    | some f =>
      simp [hu] at hs
    | none =>
      simp only [hu] at hs
      cases hg : gap.abs.gt (toleranceDec tol.multiplier b) <;> cases hp : s.pending b.acc <;>
        simp only [hg, hp, Option.some.injEq, Prod.mk.injEq] at hs ⊢
      · simp only [Option.toList_none, List.append_nil]
        obtain ⟨rfl, -⟩ := hs
        exact same rfl
      · simp at hs
      · simp at hs
      · rename_i q
        obtain ⟨k, src⟩ := q
        simp only at hs ⊢
        split at hs
        · simp only [Option.some.injEq, Prod.mk.injEq] at hs
          obtain ⟨rfl, -⟩ := hs
          have hk := drop (s'' := ({ s with pending := Function.update s.pending b.acc none }.change b.acc gap b.cur).change
            src gap.neg b.cur) b.acc rfl
          refine ⟨hk.lt, hk.inj, ?_, ?_⟩
          · intro a j src' ha f hf
            simp only [Option.toList_some, List.mem_append, List.mem_singleton] at hf
            rcases hf with hf | rfl
            · exact hk.fresh a j src' ha f hf
            · rintro rfl
              rcases update_some ha with ⟨-, hq⟩ | ⟨hne, hq⟩
              · cases hq
              · exact hne (h.inj _ _ _ _ _ hq hp)
          · intro f hf
            simp only [Option.toList_some, List.mem_append, List.mem_singleton] at hf
            rcases hf with hf | rfl
            · exact hk.filled f hf
            · have := h.lt _ _ _ hp
              simp only
              omega
        · cases hs
  | _ =>
    simp only [hv, Option.some.injEq, Prod.mk.injEq] at hs ⊢
    simp only [Option.toList_none, List.append_nil]
    obtain ⟨rfl, -⟩ := hs
    exact same rfl

theorem outputs_loop (hL : L.Lawful) {order : AMap Str (Account L) → AMap Str (Account L)} {o : BookOptions}
    (hf : (envOf L o order).Fair) (ds : List Raw.Directive) {n : Nat} {r r' : Run L} {s s' : Tally L}
    {B : List Booked.Directive} {F : List (Nat × List Booked.Posting)}
    (hi : StInv n r.booked r.st) (ht : Tal o.bookingMethod r.booked r.st s) (hp : FillInv n s F)
    (hB : OneTxn B) (hb : r.booked = B.map (fillIn F))
    (hr : Run.loop (envOf L o order) n ds r = some r')
    (hs : Tally.run o.bookingMethod o.tolerance n s ds = some (s', [])) :
    r'.st.warnings = r.st.warnings ++ (ds.zipIdx n).flatMap (fun d => warns L d.2 d.1) ∧
    r'.booked = (B ++ (Tally.history o.bookingMethod o.tolerance n s ds).flatMap fun x =>
        x.1.emits o.bookingMethod o.tolerance x.2.1 x.2.2).map
      (fillIn (F ++ (Tally.history o.bookingMethod o.tolerance n s ds).filterMap fun x => x.1.fills o.tolerance x.2.2)) := by
  induction ds generalizing n r s B F with
  | nil =>
    simp only [Run.loop, Option.some.injEq] at hr
    subst hr
    simp [Tally.history, hb]
  | cons d ds ih =>
    simp only [Run.loop] at hr
    simp only [Tally.run] at hs
    have h1 := audit_step hL hf d hi ht
    cases hr1 : r.step (envOf L o order) n d with
    | none => simp [hr1] at hr
    | some r1 =>
      simp only [hr1] at hr
      cases hs1 : s.step o.bookingMethod o.tolerance n d with
      | none => simp [hs1] at hs
      | some q =>
        obtain ⟨s1, fs⟩ := q
        simp only [hs1] at hs
        cases hs2 : Tally.run o.bookingMethod o.tolerance (n + 1) s1 ds with
        | none => simp [hs2] at hs
        | some q =>
          obtain ⟨s2, fs2⟩ := q
          simp only [hs2, Option.some.injEq, Prod.mk.injEq, List.append_eq_nil_iff] at hs
          obtain ⟨rfl, rfl, rfl⟩ := hs
          rw [hr1, hs1] at h1
          obtain ⟨ht1, xs, hx, hxs⟩ := h1
          have hxs : xs = [] := List.forall₂_nil_right_iff.1 hxs
          subst hxs
          obtain ⟨hw, hout⟩ := outputs_step hL hf hi ht hr1 (by simpa using hx)
          have hi1 := hi.step hr1
          have hp1 := hp.step hs1
          have hlt : ∀ x ∈ B, x.idx < n := by
            intro x hx
            have := hi.idxB (fillIn F x) (by rw [hb]; exact List.mem_map_of_mem hx)
            rwa [fillIn_idx] at this
          have hB1 := hB.append (variants_one o.bookingMethod o.tolerance s n d) hlt (fun x hx => emits_idx hx)
          have hb1 : r1.booked = (B ++ s.emits o.bookingMethod o.tolerance n d).map
              (fillIn (F ++ (s.fills o.tolerance d).toList)) := by
            have hnew : ∀ G : List (Nat × List Booked.Posting), (∀ f ∈ G, f.1 < n) →
                (s.emits o.bookingMethod o.tolerance n d).map (fillIn G) = s.emits o.bookingMethod o.tolerance n d := by
              intro G hG
              conv_rhs => rw [← List.map_id (s.emits o.bookingMethod o.tolerance n d)]
              apply List.map_congr_left
              intro x hx
              rw [fillIn_other]
              · rfl
              · intro f hf
                rw [emits_idx hx]
                have := hG f hf
                omega
            rcases hout with ⟨h2, h3⟩ | ⟨b, k, src, i, d2, t, ps, -, h3, h4, h5, h6, h7, h8⟩
            · rw [h2, h3, hb]
              simp only [Option.toList_none, List.append_nil, List.map_append]
              rw [hnew F hp.filled]
            · rw [h4, h8]
              simp only [Option.toList_some, List.map_append]
              rw [hnew]
              · congr 1
                subst h7
                rw [hb] at h5 ⊢
                exact fillIn_set hB h5 h6 (hp.fresh _ _ _ h3) ps
              · intro f hf
                rw [List.mem_append, List.mem_singleton] at hf
                rcases hf with hf | rfl
                · exact hp.filled f hf
                · exact hp.lt _ _ _ h3
          obtain ⟨k1, k2⟩ := ih hi1 ht1 hp1 hB1 hb1 hr hs2
          refine ⟨?_, ?_⟩
          · rw [k1, hw]
            simp [List.zipIdx_cons]
          · rw [k2]
            simp only [Tally.history, hs1, List.flatMap_cons, List.filterMap_cons, List.append_assoc]
            cases s.fills o.tolerance d <;> rfl

end Limabean
