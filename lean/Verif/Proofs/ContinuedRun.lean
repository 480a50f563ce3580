/-
Continuing a ledger: where both ledgers have led, and what is told.
-/
import Verif.Proofs.ContinuedLemmas
import Verif.Props.C82

namespace Limabean

open Spec

variable {L : BookLib}

/-- The life of an account, as remembered. -/
inductive Lived (n : Nat) : Life → Standing → Option (Nat × Raw.Open) → Prop
  | never : Lived n .never .unknown none
  | opn {k j} (o) : k < n → j < n → Lived n (.opn o) (.opn k) (some (j, o))
  | closed {k j} (o) : k < n → j < n → Lived n (.closed o) (.closed k) (some (j, o))

theorem Lived.more {n : Nat} {l : Life} {x : Standing} {t : Option (Nat × Raw.Open)} (h : Lived n l x t) : Lived (n + 1) l x t := by
  cases h with
  | never => exact .never
  | opn o h1 h2 => exact .opn o (by omega) (by omega)
  | closed o h1 h2 => exact .closed o (by omega) (by omega)

/-- What is remembered after directives without fault. -/
structure Led (pre : List Raw.Directive) (s : Tally L) : Prop where
  kept : Kept s
  known : ∀ a, (s.pending a).isSome → a ∈ s.names
  life : ∀ a, Lived pre.length (life pre a) (s.standing a) (s.terms a)

theorem Led.init : Led [] (Tally.init L) := ⟨Kept.init, by simp [Tally.init], fun _ => .never⟩

theorem Led.step (hL : L.Lawful) {option : Option Booking} {tol : Tolerance} {pre : List Raw.Directive} {s s' : Tally L} {d : Raw.Directive}
    (h : Led pre s) (hs : s.step option tol pre.length d = some (s', [])) : Led (pre ++ [d]) s' := by
  refine ⟨h.kept.step hL hs, ?_, ?_⟩
  · have hk := h.known
    intro a
    unfold Tally.step at hs
    cases hv : d.variant with
    | opn o =>
      simp only [hv] at hs
      cases hst : s.standing o.acc <;> simp only [hst, Tally.unchanged, Option.some.injEq, Prod.mk.injEq, and_false,
        List.cons_ne_nil] at hs
      obtain ⟨rfl, -⟩ := hs
      exact fun hp => List.mem_append_left _ (hk a hp)
    | close c =>
      simp only [hv] at hs
      cases hst : s.standing c.acc <;> simp only [hst, Tally.unchanged, Option.some.injEq, Prod.mk.injEq, and_false,
        List.cons_ne_nil] at hs
      obtain ⟨rfl, -⟩ := hs
      exact hk a
    | transaction t =>
      simp only [hv] at hs
      cases hb : L.book d.date t.postings tol s.held (s.method option) with
      | error e => simp [hb, Tally.unchanged] at hs
      | ok r =>
        simp only [hb] at hs
        cases hw : s.wrongPosting 0 (r.interpolated.zip t.postings) with
        | some q => simp [hw] at hs
        | none =>
          simp only [hw, Option.some.injEq, Prod.mk.injEq, and_true] at hs
          subst hs
          exact hk a
    | balance b =>
      simp only [hv] at hs
      cases hu : s.usage b.acc b.cur with
      | some f => simp [hu, Tally.unchanged] at hs
      | none =>
        simp only [hu] at hs
        generalize b.units.sub (s.total b.acc b.cur) = gap at hs
        cases hg : gap.abs.gt (toleranceDec tol.multiplier b) <;> cases hp : s.pending b.acc <;> simp only [hg, hp] at hs
        · cases hs; exact hk a
        · cases hs
        · cases hs
        · split at hs
          · cases hs
            intro hx
            simp only [Tally.change] at hx ⊢
            by_cases ha : a = b.acc
            · subst ha; simp at hx
            · rw [Function.update_of_ne ha] at hx
              exact hk a hx
          · cases hs
    | pad p =>
      simp only [hv] at hs
      cases ha : s.account p.acc <;> cases hp : s.pending p.acc <;> simp only [ha, hp, Tally.unchanged] at hs
      · cases hs
        intro hx
        by_cases hap : a = p.acc
        · subst hap
          refine (h.kept.known _).2 fun hu => ?_
          simp [Tally.account, hu] at ha
        · simp only [Function.update_of_ne hap] at hx
          exact hk a hx
      all_goals cases hs
    | _ =>
      simp only [hv, Option.some.injEq, Prod.mk.injEq, and_true] at hs
      subst hs
      exact hk a
  · intro a
    have hl := h.life a
    rw [life_snoc, List.length_append, List.length_singleton]
    have same : s'.standing = s.standing → s'.terms = s.terms → (Spec.life pre a).next a d.variant = Spec.life pre a →
        Lived (pre.length + 1) ((Spec.life pre a).next a d.variant) (s'.standing a) (s'.terms a) := by
      intro h1 h2 h3
      rw [h1, h2, h3]
      exact hl.more
    unfold Tally.step at hs
    cases hv : d.variant with
    | opn o =>
      simp only [hv] at hs
      cases hst : s.standing o.acc <;> simp only [hst, Tally.unchanged, Option.some.injEq, Prod.mk.injEq, and_false,
        List.cons_ne_nil] at hs
      obtain ⟨rfl, -⟩ := hs
      by_cases ha : a = o.acc
      · subst ha
        rw [hst] at hl
        generalize Spec.life pre o.acc = l at *
        generalize s.terms o.acc = t at *
        cases hl
        simp only [Life.next, if_true, Function.update_self]
        exact .opn o (by omega) (by omega)
      · simp only [Function.update_of_ne ha]
        have : (Spec.life pre a).next a (.opn o) = Spec.life pre a := by
          cases Spec.life pre a <;> simp [Life.next, Ne.symm ha]
        rw [this]
        exact hl.more
    | close c =>
      simp only [hv] at hs
      cases hst : s.standing c.acc <;> simp only [hst, Tally.unchanged, Option.some.injEq, Prod.mk.injEq, and_false,
        List.cons_ne_nil] at hs
      obtain ⟨rfl, -⟩ := hs
      by_cases ha : a = c.acc
      · subst ha
        rw [hst] at hl
        generalize Spec.life pre c.acc = l at *
        generalize s.terms c.acc = t at *
        cases hl with
        | opn o h1 h2 =>
          simp only [Life.next, if_true, Function.update_self]
          exact .closed o (by omega) (by omega)
      · simp only [Function.update_of_ne ha]
        have : (Spec.life pre a).next a (.close c) = Spec.life pre a := by
          cases Spec.life pre a <;> simp [Life.next, Ne.symm ha]
        rw [this]
        exact hl.more
    | transaction t =>
      rw [← hv]
      simp only [hv] at hs
      cases hb : L.book d.date t.postings tol s.held (s.method option) with
      | error e => simp [hb, Tally.unchanged] at hs
      | ok r =>
        simp only [hb] at hs
        cases hw : s.wrongPosting 0 (r.interpolated.zip t.postings) with
        | some q => simp [hw] at hs
        | none =>
          simp only [hw, Option.some.injEq, Prod.mk.injEq, and_true] at hs
          subst hs
          exact same rfl rfl (by rw [hv]; cases Spec.life pre a <;> rfl)
    | balance b =>
      rw [← hv]
      simp only [hv] at hs
      cases hu : s.usage b.acc b.cur with
      | some f => simp [hu, Tally.unchanged] at hs
      | none =>
        simp only [hu] at hs
        generalize b.units.sub (s.total b.acc b.cur) = gap at hs
        cases hg : gap.abs.gt (toleranceDec tol.multiplier b) <;> cases hp : s.pending b.acc <;> simp only [hg, hp] at hs
        · cases hs; exact same rfl rfl (by rw [hv]; cases Spec.life pre a <;> rfl)
        · cases hs
        · cases hs
        · split at hs
          · cases hs
            exact same rfl rfl (by rw [hv]; cases Spec.life pre a <;> rfl)
          · cases hs
    | pad p =>
      rw [← hv]
      simp only [hv] at hs
      cases ha : s.account p.acc <;> cases hp : s.pending p.acc <;> simp only [ha, hp, Tally.unchanged] at hs
      · cases hs
        exact same rfl rfl (by rw [hv]; cases Spec.life pre a <;> rfl)
      all_goals cases hs
    | _ =>
      rw [← hv]
      simp only [hv, Option.some.injEq, Prod.mk.injEq, and_true] at hs
      subst hs
      exact same rfl rfl (by rw [hv]; cases Spec.life pre a <;> rfl)

/-- After directives without fault. -/
theorem Led.run (hL : L.Lawful) {option : Option Booking} {tol : Tolerance} (ds : List Raw.Directive) {pre : List Raw.Directive} {s s' : Tally L}
    (F : List (Nat × List Booked.Posting)) (h : Led pre s) (hF : FillInv pre.length s F)
    (hs : Tally.run option tol pre.length s ds = some (s', [])) :
    Led (pre ++ ds) s' ∧ FillInv (pre.length + ds.length) s' (F ++ filled tol (Tally.history option tol pre.length s ds)) := by
  induction ds generalizing pre s F with
  | nil =>
    simp only [Tally.run, Option.some.injEq, Prod.mk.injEq, and_true] at hs
    subst hs
    simpa [filled, Tally.history] using ⟨h, hF⟩
  | cons d ds ih =>
    simp only [Tally.run] at hs
    cases hd : s.step option tol pre.length d with
    | none => simp [hd] at hs
    | some q =>
      obtain ⟨t, fs⟩ := q
      simp only [hd] at hs
      cases hr : Tally.run option tol (pre.length + 1) t ds with
      | none => simp [hr] at hs
      | some q' =>
        obtain ⟨u, fs'⟩ := q'
        simp only [hr, Option.some.injEq, Prod.mk.injEq, List.append_eq_nil_iff] at hs
        obtain ⟨rfl, rfl, rfl⟩ := hs
        have hF' := hF.step hd
        have hlen : (pre ++ [d]).length = pre.length + 1 := by simp
        have := ih (pre := pre ++ [d]) _ (h.step hL hd) (by rw [hlen]; exact hF') (by rw [hlen]; exact hr)
        rw [hlen, List.append_assoc, List.append_assoc] at this
        refine ⟨this.1, ?_⟩
        rw [List.length_cons, show pre.length + (ds.length + 1) = pre.length + 1 + ds.length by omega]
        refine (congrArg (FillInv _ _) ?_).mp this.2
        simp only [Tally.history, hd, filled, List.filterMap_cons]
        cases s.fills tol d <;> rfl


/-- Where an accepted ledger leads. -/
theorem accepted_led (hL : L.Lawful) {order : AMap Str (Account L) → AMap Str (Account L)} (hf : ∀ m, (order m).Perm m) {o : BookOptions}
    {ds : List Raw.Directive} {out : List Booked.Directive} {w : List IndexedReport} (h : book L order o ds = .success out w) :
    ∃ s, Tally.run o.bookingMethod o.tolerance 0 (Tally.init L) ds = some (s, []) ∧ Led ds s ∧ (∀ a, s.pending a = none) ∧
      (∀ acc cur, (s.total acc cur).val = rolledUp out acc cur) ∧
      (∀ f ∈ filled o.tolerance (Tally.history o.bookingMethod o.tolerance 0 (Tally.init L) ds), f.1 < ds.length) := by
  obtain ⟨ha, -, -⟩ := (C82_returned L hL order hf o ds out w).1 h
  unfold audit at ha
  cases hrun : Tally.run o.bookingMethod o.tolerance 0 (Tally.init L) ds with
  | none => simp [hrun] at ha
  | some q =>
    obtain ⟨s, fs⟩ := q
    simp only [hrun, Option.map_some, Option.some.injEq, Prod.mk.injEq] at ha
    obtain ⟨rfl, hu⟩ := ha
    obtain ⟨h1, h2⟩ := Led.run (pre := []) hL ds [] Led.init ⟨by simp [Tally.init], by simp [Tally.init], by simp, by simp⟩ hrun
    simp only [List.nil_append, List.length_nil, Nat.zero_add] at h1 h2
    refine ⟨s, rfl, h1, ?_, ?_, h2.filled⟩
    · intro a
      cases hp : s.pending a with
      | none => rfl
      | some x =>
        unfold Tally.unbalanced at hu
        rw [List.filterMap_eq_nil_iff] at hu
        have := hu a (h1.known a (by simp [hp]))
        simp [hp] at this
    · intro acc cur
      have hfair : (envOf L o order).Fair := hf
      have hb := h
      unfold book at hb
      obtain ⟨r, hr, he, -, rfl, -⟩ := collect_success hb
      have ht := audit_loop (r := {}) hL (o := o) hfair ds StInv.init (Tal.init o.bookingMethod)
      rw [hr, hrun] at ht
      obtain ⟨ht, -⟩ := ht
      have hinv := StInv.loop hr
      rw [← ht.total hinv.wfA hfair, State.totalRollupUnits_val hfair, held_loop hL hr he]
      unfold rolledUp
      congr 1
      funext q
      simp

/-- Both ledgers lead to where the rest goes on alike. -/
theorem Led.cont {A : Str → Prop} {alike : L.Pos → L.Pos → Prop} {old opening : List Raw.Directive} {s s' : Tally L}
    (h : Led old s) (h' : Led opening s') (hp : ∀ a, s.pending a = none) (hp' : ∀ a, s'.pending a = none)
    (hlife : ∀ a, A a → LeftAlike (Spec.life old a) (Spec.life opening a)) (hheld : ∀ a, A a → ∀ p q, s.held a = some p → s'.held a = some q → alike p q) :
    Cont old.length opening.length A alike s s' := by
  refine ⟨fun a ha => ?_, h.kept, h'.kept, fun a _ => ⟨hp a, hp' a⟩, h.known, h'.known⟩
  have hst : StandsAlike old.length opening.length (s.standing a) (s'.standing a) ∧
      TermsAlike old.length opening.length (s.terms a) (s'.terms a) := by
    have e1 := hlife a ha
    have e2 := h.life a
    have e3 := h'.life a
    generalize Spec.life old a = l at *
    generalize Spec.life opening a = l' at *
    generalize s.standing a = x at *
    generalize s'.standing a = x' at *
    generalize s.terms a = t at *
    generalize s'.terms a = t' at *
    cases e1 with
    | never => cases e2; cases e3; exact ⟨.unknown, .none⟩
    | opn o o' c1 c2 =>
      cases e2 with
      | opn _ a1 a2 =>
        cases e3 with
        | opn _ b1 b2 => exact ⟨.opn (.inl ⟨a1, b1⟩), .some (.inl ⟨a2, b2⟩) c1 c2⟩
    | closed o o' c1 c2 =>
      cases e2 with
      | closed _ a1 a2 =>
        cases e3 with
        | closed _ b1 b2 => exact ⟨.closed (.inl ⟨a1, b1⟩), .some (.inl ⟨a2, b2⟩) c1 c2⟩
  refine ⟨hst.1, hst.2, ?_, by rw [hp, hp']; exact .none⟩
  have hn : a ∈ s.names ↔ a ∈ s'.names := by
    rw [h.kept.known, h'.kept.known]
    have := hst.1
    generalize s.standing a = x at *
    generalize s'.standing a = x' at *
    cases this <;> simp
  have k1 := h.kept.held a
  have k2 := h.kept.rest a
  have k3 := h'.kept.held a
  have k4 := h'.kept.rest a
  cases e : s.held a with
  | none =>
    cases e' : s'.held a with
    | none => exact .none
    | some q =>
      have := k1 (hn.2 (k4 (by simp [e'])))
      simp [e] at this
  | some p =>
    cases e' : s'.held a with
    | none =>
      have := k3 (hn.1 (k2 (by simp [e])))
      simp [e'] at this
    | some q => exact .some (hheld a ha p q e e')

/-- The same finding is told in the same way. -/
theorem SameFinding.told {n n' : Nat} {f f' : Finding} (h : SameFinding n n' f f') {x x' : IndexedReport} (hx : Announces x f) (hx' : Announces x' f') :
    AlikeReport n n' x x' := by
  obtain ⟨⟨i, h1, h2⟩, h3, h4⟩ := h
  obtain ⟨d, p, flt⟩ := f
  obtain ⟨d', p', flt'⟩ := f'
  obtain ⟨idx, reason, related, ann⟩ := x
  obtain ⟨idx', reason', related', ann'⟩ := x'
  obtain ⟨e1, e2⟩ := hx
  obtain ⟨e1', e2'⟩ := hx'
  simp only at h1 h2 h3 h4 e1 e2 e1' e2'
  subst e1 e1' h1 h2 h3
  refine ⟨⟨i, rfl, rfl⟩, rfl, ?_, ?_⟩
  · cases h4 <;> cases e2 <;> cases e2' <;> first | exact .same _ | exact .accumulated _ _ _ _ _ (by assumption)
  · cases h4 <;> cases e2 <;> cases e2' <;> first | exact .none | exact .some (.cons ⟨by assumption, rfl⟩ .nil)

theorem SameFinding.allTold {n n' : Nat} {fs fs' : List Finding} (h : List.Forall₂ (SameFinding n n') fs fs') {xs xs' : List IndexedReport}
    (hx : List.Forall₂ Announces xs fs) (hx' : List.Forall₂ Announces xs' fs') : List.Forall₂ (AlikeReport n n') xs xs' := by
  induction h generalizing xs xs' with
  | nil => cases hx; cases hx'; exact .nil
  | cons h _ ih =>
    cases hx with
    | cons a as =>
      cases hx' with
      | cons b bs => exact .cons (h.told a b) (ih as bs)

/-- Reports of findings in another order. -/
theorem announced_perm {ys ys' : List Finding} (hp : ys'.Perm ys) : ∀ {xs : List IndexedReport}, List.Forall₂ Announces xs ys →
    ∃ xs', List.Forall₂ Announces xs' ys' ∧ xs'.Perm xs := by
  induction hp with
  | nil => intro xs h; cases h; exact ⟨[], .nil, .nil⟩
  | cons x _ ih =>
    intro xs h
    cases h with
    | cons a as =>
      obtain ⟨xs', h1, h2⟩ := ih as
      exact ⟨_, .cons a h1, h2.cons _⟩
  | swap x y l =>
    intro xs h
    cases h with
    | cons a as =>
      cases as with
      | cons b bs => exact ⟨_, .cons b (.cons a bs), .swap ..⟩
  | trans _ _ ih1 ih2 =>
    intro xs h
    obtain ⟨xs1, h1, h2⟩ := ih2 h
    obtain ⟨xs2, h3, h4⟩ := ih1 h1
    exact ⟨xs2, h3, h4.trans h2⟩

theorem emitted_lt (option : Option Booking) (tol : Tolerance) (ds : List Raw.Directive) (n : Nat) (s : Tally L) :
    ∀ d ∈ emitted option tol (Tally.history option tol n s ds), d.idx < n + ds.length := by
  induction ds generalizing n s with
  | nil => simp [Tally.history]
  | cons d ds ih =>
    intro x hx
    simp only [Tally.history, emitted, List.flatMap_cons, List.mem_append] at hx
    rcases hx with hx | hx
    · rw [emits_idx hx, List.length_cons]; omega
    · cases hs : s.step option tol n d with
      | none => simp [hs] at hx
      | some q =>
        simp only [hs] at hx
        have := ih (n + 1) q.1 x hx
        rw [List.length_cons]; omega

/-- What is returned for a ledger which goes on. -/
theorem returned_append (option : Option Booking) (tol : Tolerance) (old rest : List Raw.Directive) {s : Tally L} {fs : List Finding}
    (hs : Tally.run option tol 0 (Tally.init L) old = some (s, fs))
    (h1 : ∀ f ∈ filled tol (Tally.history option tol 0 (Tally.init L) old), f.1 < old.length)
    (h2 : ∀ f ∈ filled tol (Tally.history option tol old.length s rest), old.length ≤ f.1)
    (h3 : ∀ d ∈ emitted option tol (Tally.history option tol old.length s rest), old.length ≤ d.idx) :
    returned L option tol (old ++ rest) = returned L option tol old ++ returnedOf option tol (Tally.history option tol old.length s rest) := by
  unfold returned returnedOf
  rw [history_append, hs]
  simp only [Nat.zero_add, List.flatMap_append, List.map_append, List.filterMap_append]
  have h0 := emitted_lt option tol old 0 (Tally.init L)
  unfold filled at h1 h2
  unfold emitted at h0 h3
  congr 1
  · refine List.map_congr_left fun d hd => ?_
    have hlt := h0 d hd
    unfold fillIn
    have : List.find? (fun f => decide (f.1 = d.idx)) (List.filterMap (fun x => x.1.fills tol x.2.2) (Tally.history option tol old.length s rest)) = none :=
      List.find?_eq_none.2 fun f hf => by
        have := h2 f hf
        simp only [decide_eq_true_eq]; omega
    rw [List.find?_append, this, Option.or_none]
  · refine List.map_congr_left fun d hd => ?_
    have hge := h3 d hd
    unfold fillIn
    have : List.find? (fun f => decide (f.1 = d.idx)) (List.filterMap (fun x => x.1.fills tol x.2.2) (Tally.history option tol 0 (Tally.init L) old)) = none :=
      List.find?_eq_none.2 fun f hf => by
        have := h1 f hf
        simp only [decide_eq_true_eq]; omega
    rw [List.find?_append, this, Option.none_or]

theorem warned_append (old rest : List Raw.Directive) :
    warned L (old ++ rest) = warned L old ++ (rest.zipIdx old.length).flatMap fun d => warns L d.2 d.1 := by
  unfold warned
  rw [List.zipIdx_append, List.flatMap_append, Nat.zero_add]

theorem warned_alike (n n' : Nat) (rest : List Raw.Directive) :
    List.Forall₂ (AlikeReport n n') ((rest.zipIdx n).flatMap fun d => warns L d.2 d.1) ((rest.zipIdx n').flatMap fun d => warns L d.2 d.1) := by
  have key : ∀ (rest : List Raw.Directive) (i : Nat), List.Forall₂ (AlikeReport n n') ((rest.zipIdx (n + i)).flatMap fun d => warns L d.2 d.1)
      ((rest.zipIdx (n' + i)).flatMap fun d => warns L d.2 d.1) := by
    intro rest
    induction rest with
    | nil => intro i; exact .nil
    | cons d rest ih =>
      intro i
      simp only [List.zipIdx_cons, List.flatMap_cons]
      refine List.rel_append ?_ (ih (i + 1))
      unfold warns
      cases d.variant with
      | opn o =>
        simp only
        cases o.booking with
        | none => exact .nil
        | some b =>
          simp only
          split
          · exact .nil
          · exact .cons ⟨⟨i, rfl, rfl⟩, rfl, .same _, .none⟩ (.cons ⟨⟨i, rfl, rfl⟩, rfl, .same _, .none⟩ .nil)
      | _ => exact .nil
  exact key rest 0

end Limabean
