/-
C75: the reports of booking are exactly the faults of the ledger. C13: exactly when booking panics.
-/
import Verif.Proofs.FaultLemmas

namespace Limabean

open Spec

variable {L : BookLib}

theorem leftOver_tells {opt : Option Booking} {bk : List Booked.Directive} {st : State L} {s : Tally L}
    (ht : Tal opt bk st s) (hw : AMap.WF st.accounts) :
    List.Forall₂ Announces (st.accounts.filterMap fun ca => ca.2.pad.map fun p => p.2.report .unusedNoBalance)
      s.unbalanced := by
  have key : ∀ (m : AMap Str (Account L)), (∀ ka ∈ m, st.accounts.get ka.1 = some ka.2) →
      List.Forall₂ Announces (m.filterMap fun ca => ca.2.pad.map fun p => p.2.report .unusedNoBalance)
        ((AMap.keys m).filterMap fun a => (s.pending a).map fun p => ({ directive := p.1, fault := .padUnbalanced } : Finding)) := by
    intro m hm
    induction m with
    | nil => exact .nil
    | cons ka m ih =>
      have ih := ih fun kb hkb => hm kb (List.mem_cons_of_mem _ hkb)
      have h := ht.at_ ka.1
      rw [hm ka (by simp)] at h
      simp only [AMap.keys, List.map_cons, List.filterMap_cons] at ih ⊢
      generalize st.opened.get ka.1 = eo at h
      generalize st.closed.get ka.1 = ec at h
      generalize s.terms ka.1 = tm at h
      generalize s.standing ka.1 = sd at h
      generalize s.held ka.1 = hl at h
      generalize s.pending ka.1 = pd at h ⊢
      cases h with
      | known h1 h2 h3 =>
        generalize ka.2.pad = xp at h3 ⊢
        cases h3 with
        | nothing => exact ih
        | pending hs => exact .cons ⟨rfl, .padUnbalanced⟩ ih
  have := key st.accounts fun ka hka => AMap.get_of_mem hw hka
  rw [ht.names] at this
  exact this

/-- C75: for every ledger, booking reports exactly what the audit of `Spec.audit` finds: for each fault one report, at the
directive and posting where the fault is, saying what it is and to which other directive it refers, in the order of the
directives, and the pads which are left over at the end, in some order. Faults do not hide other faults: the audit goes
on after each. Booking succeeds exactly when there is no fault, and panics exactly when the audit has a crash. -/
theorem C75_reports (L : BookLib) (hL : L.Lawful) (order : AMap Str (Account L) → AMap Str (Account L))
    (hf : ∀ m, (order m).Perm m) (o : BookOptions) (ds : List Raw.Directive) :
    match audit L o.bookingMethod o.tolerance ds with
    | none => book L order o ds = .panic
    | some ([], []) => ∃ out w, book L order o ds = .success out w
    | some (fs, ps) => ∃ xs ys ys', book L order o ds = .failure (xs ++ ys') ∧ ys'.Perm ys ∧
        List.Forall₂ Announces xs fs ∧ List.Forall₂ Announces ys ps := by
  have h := audit_loop (r := {}) hL (o := o) (show (envOf L o order).Fair from hf) ds StInv.init (Tal.init o.bookingMethod)
  unfold audit book collect
  cases hr : Run.loop (envOf L o order) 0 ds {} with
  | none =>
    cases hs : Tally.run o.bookingMethod o.tolerance 0 (Tally.init L) ds with
    | none => rfl
    | some q => rw [hr, hs] at h; exact h.elim
  | some r =>
    cases hs : Tally.run o.bookingMethod o.tolerance 0 (Tally.init L) ds with
    | none => rw [hr, hs] at h; exact h.elim
    | some q =>
      obtain ⟨s, fs⟩ := q
      rw [hr, hs] at h
      obtain ⟨ht, xs, hx, hxs⟩ := h
      have hx : r.errors = xs := by simpa using hx
      have hlo := leftOver_tells ht (StInv.loop hr).wfA
      have hperm : (r.st.leftOverPads (envOf L o order)).Perm
          (r.st.accounts.filterMap fun ca => ca.2.pad.map fun p => p.2.report .unusedNoBalance) :=
        (hf r.st.accounts).filterMap _
      simp only [Option.map_some, Run.validate, hx]
      generalize hps : s.unbalanced = ps at hlo
      split
      · rename_i h1; cases h1
      · rename_i h1
        simp only [Option.some.injEq, Prod.mk.injEq] at h1
        obtain ⟨rfl, rfl⟩ := h1
        cases hxs
        rw [List.forall₂_nil_right_iff.1 hlo] at hperm
        rw [hperm.eq_nil]
        exact ⟨_, _, rfl⟩
      · rename_i fs' ps' hne h1
        simp only [Option.some.injEq, Prod.mk.injEq] at h1
        obtain ⟨rfl, rfl⟩ := h1
        refine ⟨xs, _, _, ?_, hperm, hxs, hlo⟩
        rw [if_neg]
        intro hemp
        rw [List.isEmpty_iff, List.append_eq_nil_iff] at hemp
        obtain ⟨rfl, h2⟩ := hemp
        rw [h2] at hperm
        rw [hperm.nil_eq.symm] at hlo
        cases hxs
        cases hlo
        exact hne rfl rfl

/-! ### Panics -/

/-- Who has been opened. -/
structure Tally.Opened (pre : List Raw.Directive) (s : Tally L) : Prop where
  names : ∀ a, a ∈ s.names ↔ ∃ d ∈ pre, ∃ o, d.variant = .opn o ∧ o.acc = a
  standing : ∀ a, s.standing a = .unknown ↔ a ∉ s.names
  pending : ∀ a k src, s.pending a = some (k, src) →
    ∃ d p, pre[k]? = some d ∧ d.variant = .pad p ∧ p.acc = a ∧ p.source = src

theorem Tally.Opened.skip {pre : List Raw.Directive} {d : Raw.Directive} {s s' : Tally L} (h : Tally.Opened pre s)
    (hd : ∀ o, d.variant ≠ .opn o) (hn : s'.names = s.names) (hst : ∀ a, s'.standing a = .unknown ↔ s.standing a = .unknown)
    (hp : ∀ a k src, s'.pending a = some (k, src) → s.pending a = some (k, src) ∨
      (k = pre.length ∧ ∃ p, d.variant = .pad p ∧ p.acc = a ∧ p.source = src)) :
    Tally.Opened (pre ++ [d]) s' := by
  refine ⟨?_, ?_, ?_⟩
  · intro a
    rw [hn, h.names]
    constructor
    · rintro ⟨x, hx, o, ho, ha⟩
      exact ⟨x, List.mem_append_left _ hx, o, ho, ha⟩
    · rintro ⟨x, hx, o, ho, ha⟩
      rcases List.mem_append.1 hx with hx | hx
      · exact ⟨x, hx, o, ho, ha⟩
      · rw [List.mem_singleton] at hx
        subst hx
        exact absurd ho (hd o)
  · intro a
    rw [hst, h.standing, hn]
  · intro a k src hk
    rcases hp a k src hk with hk | ⟨rfl, p, h1, h2, h3⟩
    · obtain ⟨x, p, h1, h2⟩ := h.pending a k src hk
      exact ⟨x, p, by rw [List.getElem?_append_left (List.getElem?_eq_some_iff.1 h1).1]; exact h1, h2⟩
    · exact ⟨d, p, by simp, h1, h2, h3⟩

theorem Tally.Opened.step {opt : Option Booking} {tol : Tolerance} {pre : List Raw.Directive} {d : Raw.Directive}
    {s s' : Tally L} {fs : List Finding} (h : Tally.Opened pre s) (hs : s.step opt tol pre.length d = some (s', fs)) :
    Tally.Opened (pre ++ [d]) s' := by
  unfold Tally.step at hs
  cases hv : d.variant with
  | opn o =>
    simp only [hv] at hs
    have other : ∀ s'' : Tally L, s''.names = s.names → (∀ a, s''.standing a = .unknown ↔ s.standing a = .unknown) →
        s''.pending = s.pending → s.standing o.acc ≠ .unknown → Tally.Opened (pre ++ [d]) s'' := by
      intro s'' h1 h2 h3 h4
      refine ⟨?_, ?_, ?_⟩
      · intro a
        rw [h1]
        constructor
        · intro ha
          obtain ⟨x, hx, o', ho, hoa⟩ := (h.names a).1 ha
          exact ⟨x, List.mem_append_left _ hx, o', ho, hoa⟩
        · rintro ⟨x, hx, o', ho, ha⟩
          rcases List.mem_append.1 hx with hx | hx
          · exact (h.names a).2 ⟨x, hx, o', ho, ha⟩
          · rw [List.mem_singleton] at hx
            subst hx
            rw [hv] at ho
            cases ho
            subst ha
            by_contra hc
            exact h4 ((h.standing _).2 hc)
      · intro a
        rw [h2, h.standing, h1]
      · intro a k src hk
        rw [h3] at hk
        obtain ⟨x, p, h1, h2⟩ := h.pending a k src hk
        exact ⟨x, p, by rw [List.getElem?_append_left (List.getElem?_eq_some_iff.1 h1).1]; exact h1, h2⟩
    cases hst : s.standing o.acc with
    | unknown =>
      simp only [hst, Option.some.injEq, Prod.mk.injEq] at hs
      obtain ⟨rfl, -⟩ := hs
      refine ⟨?_, ?_, ?_⟩
      · intro a
        simp only [List.mem_append, List.mem_singleton]
        rw [h.names]
        constructor
        · rintro (⟨x, hx, o', ho, ha⟩ | rfl)
          · exact ⟨x, Or.inl hx, o', ho, ha⟩
          · exact ⟨d, Or.inr rfl, o, hv, rfl⟩
        · rintro ⟨x, hx | rfl, o', ho, ha⟩
          · exact Or.inl ⟨x, hx, o', ho, ha⟩
          · rw [hv] at ho
            cases ho
            exact Or.inr ha.symm
      · intro a
        simp only [List.mem_append, List.mem_singleton]
        by_cases ha : a = o.acc
        · subst ha; simp
        · simp [ha, h.standing]
      · intro a k src hk
        obtain ⟨x, p, h1, h2⟩ := h.pending a k src hk
        exact ⟨x, p, by rw [List.getElem?_append_left (List.getElem?_eq_some_iff.1 h1).1]; exact h1, h2⟩
    | opn k =>
      simp only [hst, Tally.unchanged, Option.some.injEq, Prod.mk.injEq] at hs
      obtain ⟨rfl, -⟩ := hs
      exact other s rfl (fun _ => Iff.rfl) rfl (by rw [hst]; simp)
    | reopened k j =>
      simp only [hst, Tally.unchanged, Option.some.injEq, Prod.mk.injEq] at hs
      obtain ⟨rfl, -⟩ := hs
      exact other s rfl (fun _ => Iff.rfl) rfl (by rw [hst]; simp)
    | closed k =>
      simp only [hst, Option.some.injEq, Prod.mk.injEq] at hs
      obtain ⟨rfl, -⟩ := hs
      refine other _ rfl ?_ rfl (by rw [hst]; simp)
      intro a
      by_cases ha : a = o.acc
      · subst ha; simp [hst]
      · simp [ha]
  | close c =>
    simp only [hv] at hs
    have hq : ∀ o, d.variant ≠ .opn o := by rw [hv]; intro o ho; cases ho
    cases hst : s.standing c.acc <;>
      simp only [hst, Tally.unchanged, Option.some.injEq, Prod.mk.injEq] at hs <;> obtain ⟨rfl, -⟩ := hs
    · exact h.skip hq rfl (fun _ => Iff.rfl) (fun _ _ _ hk => Or.inl hk)
    · refine h.skip hq rfl ?_ (fun _ _ _ hk => Or.inl hk)
      intro a
      by_cases ha : a = c.acc
      · subst ha; simp [hst]
      · simp [ha]
    · exact h.skip hq rfl (fun _ => Iff.rfl) (fun _ _ _ hk => Or.inl hk)
    · exact h.skip hq rfl (fun _ => Iff.rfl) (fun _ _ _ hk => Or.inl hk)
  | transaction t =>
    simp only [hv] at hs
    have hq : ∀ o, d.variant ≠ .opn o := by rw [hv]; intro o ho; cases ho
    split at hs
    · simp only [Tally.unchanged, Option.some.injEq, Prod.mk.injEq] at hs
      obtain ⟨rfl, -⟩ := hs
      exact h.skip hq rfl (fun _ => Iff.rfl) (fun _ _ _ hk => Or.inl hk)
    · split at hs
      · simp only [Option.some.injEq, Prod.mk.injEq] at hs
        obtain ⟨rfl, -⟩ := hs
        exact h.skip hq rfl (fun _ => Iff.rfl) (fun _ _ _ hk => Or.inl hk)
      · simp only [Option.some.injEq, Prod.mk.injEq] at hs
        obtain ⟨rfl, -⟩ := hs
        exact h.skip hq rfl (fun _ => Iff.rfl) (fun _ _ _ hk => Or.inl hk)
  | balance b =>
    simp only [hv] at hs
    have hq : ∀ o, d.variant ≠ .opn o := by rw [hv]; intro o ho; cases ho
    have hclear : ∀ a k src, Function.update s.pending b.acc none a = some (k, src) → s.pending a = some (k, src) := by
      intro a k src hk
      by_cases ha : a = b.acc
      · subst ha; simp at hk
      · simpa [ha] using hk
    split at hs
    · simp only [Tally.unchanged, Option.some.injEq, Prod.mk.injEq] at hs
      obtain ⟨rfl, -⟩ := hs
      exact h.skip hq rfl (fun _ => Iff.rfl) (fun _ _ _ hk => Or.inl hk)
    · split at hs
      · simp only [Option.some.injEq, Prod.mk.injEq] at hs
        obtain ⟨rfl, -⟩ := hs
        exact h.skip hq rfl (fun _ => Iff.rfl) (fun _ _ _ hk => Or.inl hk)
      · simp only [Option.some.injEq, Prod.mk.injEq] at hs
        obtain ⟨rfl, -⟩ := hs
        exact h.skip hq rfl (fun _ => Iff.rfl) (fun a k src hk => Or.inl (hclear a k src hk))
      · simp only [Option.some.injEq, Prod.mk.injEq] at hs
        obtain ⟨rfl, -⟩ := hs
        exact h.skip hq rfl (fun _ => Iff.rfl) (fun _ _ _ hk => Or.inl hk)
      · split at hs
        · simp only [Option.some.injEq, Prod.mk.injEq] at hs
          obtain ⟨rfl, -⟩ := hs
          exact h.skip hq rfl (fun _ => Iff.rfl) (fun a k src hk => Or.inl (hclear a k src hk))
        · cases hs
  | pad p =>
    simp only [hv] at hs
    have hq : ∀ o, d.variant ≠ .opn o := by rw [hv]; intro o ho; cases ho
    split at hs
    · simp only [Tally.unchanged, Option.some.injEq, Prod.mk.injEq] at hs
      obtain ⟨rfl, -⟩ := hs
      exact h.skip hq rfl (fun _ => Iff.rfl) (fun _ _ _ hk => Or.inl hk)
    · simp only [Option.some.injEq, Prod.mk.injEq] at hs
      obtain ⟨rfl, -⟩ := hs
      refine h.skip hq rfl (fun _ => Iff.rfl) (fun a k src hk => Or.inl ?_)
      by_cases ha : a = p.acc
      · subst ha; simp at hk
      · simpa [ha] using hk
    · simp only [Option.some.injEq, Prod.mk.injEq] at hs
      obtain ⟨rfl, -⟩ := hs
      refine h.skip hq rfl (fun _ => Iff.rfl) (fun a k src hk => ?_)
      by_cases ha : a = p.acc
      · subst ha
        simp only [Function.update_self, Option.some.injEq, Prod.mk.injEq] at hk
        exact Or.inr ⟨hk.1.symm, p, hv, rfl, hk.2⟩
      · exact Or.inl (by simpa [ha] using hk)
  | _ =>
    simp only [hv, Option.some.injEq, Prod.mk.injEq] at hs
    obtain ⟨rfl, -⟩ := hs
    exact h.skip (by rw [hv]; intro o ho; cases ho) rfl (fun _ => Iff.rfl) (fun _ _ _ hk => Or.inl hk)

/-- The only step which crashes. -/
theorem Tally.step_none {opt : Option Booking} {tol : Tolerance} {n : Nat} {d : Raw.Directive} {s : Tally L} :
    s.step opt tol n d = none ↔ ∃ b k src, d.variant = .balance b ∧ s.usage b.acc b.cur = none ∧
      s.pending b.acc = some (k, src) ∧ src ∉ s.names ∧
      (b.units.sub (s.total b.acc b.cur)).abs.gt (toleranceDec tol.multiplier b) = true := by
  unfold Tally.step
  cases hv : d.variant with
  | balance b =>
    simp only [Raw.Variant.balance.injEq]
    cases hu : s.usage b.acc b.cur with
    | some f =>
      simp only [Tally.unchanged, reduceCtorEq, false_iff]
      rintro ⟨b', k, src, rfl, h1, -⟩
      rw [hu] at h1
      cases h1
    | none =>
      simp only
      cases hg : (b.units.sub (s.total b.acc b.cur)).abs.gt (toleranceDec tol.multiplier b) with
      | false =>
        cases hp : s.pending b.acc <;>
        · simp only [reduceCtorEq, false_iff]
          rintro ⟨b', k, src, rfl, -, -, -, h1⟩
          rw [hg] at h1
          cases h1
      | true =>
        cases hp : s.pending b.acc with
        | none =>
          simp only [reduceCtorEq, false_iff]
          rintro ⟨b', k, src, rfl, -, h1, -⟩
          rw [hp] at h1
          cases h1
        | some q =>
          obtain ⟨k, src⟩ := q
          simp only [ite_eq_right_iff, reduceCtorEq, imp_false]
          constructor
          · intro h
            exact ⟨b, k, src, rfl, hu, hp, h, hg⟩
          · rintro ⟨b', k', src', rfl, -, h1, h2, -⟩
            rw [hp] at h1
            cases h1
            exact h2
  | opn o =>
    simp only [reduceCtorEq, false_and, exists_false, iff_false]
    cases s.standing o.acc <;> simp [Tally.unchanged]
  | close o =>
    simp only [reduceCtorEq, false_and, exists_false, iff_false]
    cases s.standing o.acc <;> simp [Tally.unchanged]
  | transaction t =>
    simp only [reduceCtorEq, false_and, exists_false, iff_false]
    split
    · simp [Tally.unchanged]
    · split <;> simp
  | pad p =>
    simp only [reduceCtorEq, false_and, exists_false, iff_false]
    split <;> simp [Tally.unchanged]
  | _ => simp

theorem Tally.run_none {opt : Option Booking} {tol : Tolerance} (ds : List Raw.Directive) {n : Nat} {s : Tally L} :
    Tally.run opt tol n s ds = none ↔ ∃ pre d post s' fs, ds = pre ++ d :: post ∧
      Tally.run opt tol n s pre = some (s', fs) ∧ s'.step opt tol (n + pre.length) d = none := by
  induction ds generalizing n s with
  | nil => simp [Tally.run]
  | cons d ds ih =>
    simp only [Tally.run]
    cases hs : s.step opt tol n d with
    | none =>
      simp only [true_iff]
      exact ⟨[], d, ds, s, [], rfl, rfl, hs⟩
    | some q =>
      obtain ⟨s1, fs1⟩ := q
      simp only
      constructor
      · intro h
        have h' : Tally.run opt tol (n + 1) s1 ds = none := by
          cases hr : Tally.run opt tol (n + 1) s1 ds with
          | none => rfl
          | some q => rw [hr] at h; cases h
        obtain ⟨pre, d', post, s', fs, rfl, h1, h2⟩ := ih.1 h'
        refine ⟨d :: pre, d', post, s', fs1 ++ fs, rfl, by simp only [Tally.run, hs, h1], ?_⟩
        rw [← h2]
        congr 1
        simp only [List.length_cons]; omega
      · rintro ⟨pre, d', post, s', fs, h0, h1, h2⟩
        rcases pre with _ | ⟨x, pre⟩
        · simp only [List.nil_append, List.cons.injEq] at h0
          obtain ⟨rfl, rfl⟩ := h0
          simp only [Tally.run, Option.some.injEq, Prod.mk.injEq] at h1
          obtain ⟨rfl, -⟩ := h1
          simp only [List.length_nil, Nat.add_zero] at h2
          rw [hs] at h2
          cases h2
        · simp only [List.cons_append, List.cons.injEq] at h0
          obtain ⟨rfl, rfl⟩ := h0
          simp only [Tally.run, hs] at h1
          cases hr : Tally.run opt tol (n + 1) s1 pre with
          | none => rw [hr] at h1; cases h1
          | some q =>
            obtain ⟨s2, fs2⟩ := q
            rw [hr] at h1
            simp only [Option.some.injEq, Prod.mk.injEq] at h1
            obtain ⟨rfl, -⟩ := h1
            have := (ih (n := n + 1) (s := s1)).2 ⟨pre, d', post, s2, fs2, rfl, hr, by
              rw [← h2]; congr 1; simp only [List.length_cons]; omega⟩
            rw [this]

theorem Tally.Opened.run {opt : Option Booking} {tol : Tolerance} (ds : List Raw.Directive) {pre : List Raw.Directive}
    {s s' : Tally L} {fs : List Finding} (h : Tally.Opened pre s)
    (hs : Tally.run opt tol pre.length s ds = some (s', fs)) : Tally.Opened (pre ++ ds) s' := by
  induction ds generalizing pre s fs with
  | nil =>
    simp only [Tally.run, Option.some.injEq, Prod.mk.injEq] at hs
    obtain ⟨rfl, -⟩ := hs
    simpa using h
  | cons d ds ih =>
    simp only [Tally.run] at hs
    cases h1 : s.step opt tol pre.length d with
    | none => rw [h1] at hs; cases hs
    | some q =>
      obtain ⟨s1, fs1⟩ := q
      rw [h1] at hs
      simp only at hs
      cases h2 : Tally.run opt tol (pre.length + 1) s1 ds with
      | none => rw [h2] at hs; cases hs
      | some q =>
        obtain ⟨s2, fs2⟩ := q
        rw [h2] at hs
        simp only [Option.some.injEq, Prod.mk.injEq] at hs
        obtain ⟨rfl, -⟩ := hs
        have := ih (h.step h1) (by simpa using h2)
        simpa using this

theorem Tally.Opened.init (L : BookLib) : Tally.Opened [] (Tally.init L) := by
  refine ⟨by simp [Tally.init], by simp [Tally.init], by simp [Tally.init]⟩

/-- C13: exactly when booking panics. It does iff there is an assertion on an account which may be used so, with a
pending pad from an account which no earlier directive opens, and the assertion is off by more than its tolerance. What
is held and which pad is pending are those of the audit of the directives before, `Spec.Tally.run`. -/
theorem C13_panics_iff (L : BookLib) (hL : L.Lawful) (order : AMap Str (Account L) → AMap Str (Account L))
    (hf : ∀ m, (order m).Perm m) (o : BookOptions) (ds : List Raw.Directive) :
    book L order o ds = .panic ↔ ∃ pre d post b s fs k q p, ds = pre ++ d :: post ∧ d.variant = .balance b ∧
      Tally.run o.bookingMethod o.tolerance 0 (Tally.init L) pre = some (s, fs) ∧
      s.usage b.acc b.cur = none ∧
      s.pending b.acc = some (k, p.source) ∧ pre[k]? = some q ∧ q.variant = .pad p ∧ p.acc = b.acc ∧
      (∀ x ∈ pre, ∀ op, x.variant = .opn op → op.acc ≠ p.source) ∧
      tolerance o.tolerance.multiplier b < |b.units.val - (s.total b.acc b.cur).val| := by
  have key : book L order o ds = .panic ↔ Tally.run o.bookingMethod o.tolerance 0 (Tally.init L) ds = none := by
    have h := C75_reports L hL order hf o ds
    unfold audit at h
    cases hr : Tally.run o.bookingMethod o.tolerance 0 (Tally.init L) ds with
    | none => rw [hr] at h; simpa using h
    | some q =>
      obtain ⟨s, fs⟩ := q
      rw [hr] at h
      simp only [Option.map_some] at h
      simp only [reduceCtorEq, iff_false]
      intro hp
      rw [hp] at h
      generalize s.unbalanced = ps at h
      rcases fs with _ | ⟨f, fs⟩ <;> rcases ps with _ | ⟨p, ps⟩
      · obtain ⟨_, _, h⟩ := h; cases h
      all_goals
        obtain ⟨_, _, _, h, -⟩ := h
        cases h
  have hgt : ∀ (s : Tally L) (b : Raw.Balance),
      (b.units.sub (s.total b.acc b.cur)).abs.gt (toleranceDec o.tolerance.multiplier b) = true ↔
      tolerance o.tolerance.multiplier b < |b.units.val - (s.total b.acc b.cur).val| := by
    intro s b
    rw [Dec.gt_iff, Dec.val_abs, Dec.val_sub, ← toleranceDec_eq (env := envOf L o order) rfl, C04_tolerance]
    rfl
  rw [key, Tally.run_none]
  constructor
  · rintro ⟨pre, d, post, s, fs, h1, h2, h3⟩
    obtain ⟨b, k, src, h4, h5, h6, h7, h8⟩ := Tally.step_none.1 h3
    have hop : Tally.Opened ([] ++ pre) s := (Tally.Opened.init L).run pre h2
    rw [List.nil_append] at hop
    obtain ⟨q, p, g1, g2, g3, g4⟩ := hop.pending _ _ _ h6
    subst g4
    refine ⟨pre, d, post, b, s, fs, k, q, p, h1, h4, h2, h5, h6, g1, g2, g3, ?_, (hgt s b).1 h8⟩
    intro x hx op hxo ha
    exact h7 ((hop.names _).2 ⟨x, hx, op, hxo, ha⟩)
  · rintro ⟨pre, d, post, b, s, fs, k, q, p, h1, h2, h3, h4, h5, h6, h7, h8, h9, h10⟩
    refine ⟨pre, d, post, s, fs, h1, h3, Tally.step_none.2 ⟨b, k, p.source, h2, h4, h5, ?_, (hgt s b).2 h10⟩⟩
    have hop : Tally.Opened ([] ++ pre) s := (Tally.Opened.init L).run pre h3
    intro hm
    obtain ⟨x, hx, op, h11, h12⟩ := (hop.names _).1 hm
    exact h9 x (by simpa using hx) op h11 h12

/-! ### Examples -/

namespace Ex

/-- A ledger with a fault of every kind but the library's, faults after faults included. -/
def faulty : List Raw.Directive :=
  [ Toy.mkOpen 1 bank (some [nzd]),                           -- 0
    Toy.mkOpen 1 bank,                                        -- 1 already open, by 0
    Toy.mkOpen 1 food,                                        -- 2
    Toy.mkTxn 2 [(bank, ⟨5, 0⟩, nzd), (equity, ⟨-5, 0⟩, nzd)], -- 3 posting 1: not open
    Toy.mkTxn 2 [(food, ⟨5, 0⟩, usd), (bank, ⟨-5, 0⟩, usd)],   -- 4 posting 1: currency, opened by 0
    Toy.mkTxn 2 [(food, ⟨5, 0⟩, nzd), (bank, ⟨-5, 0⟩, nzd)],   -- 5
    Toy.mkBal 3 bank ⟨10, 0⟩ nzd,                             -- 6 off by 15
    Toy.mkBal 3 bank ⟨10, 0⟩ nzd,                             -- 7 holds, once reported
    Toy.mkPad 4 food bank,                                    -- 8 superseded by 9
    Toy.mkPad 4 food bank,                                    -- 9 dropped together with it
    Toy.mkPad 4 food bank,                                    -- 10 not needed
    Toy.mkBal 5 food ⟨5, 0⟩ nzd,                              -- 11
    Toy.mkClose 6 food,                                       -- 12
    Toy.mkClose 6 food,                                       -- 13 not open
    Toy.mkTxn 6 [(food, ⟨5, 0⟩, nzd), (bank, ⟨-5, 0⟩, nzd)],   -- 14 posting 0: closed by 12
    Toy.mkOpen 7 food,                                        -- 15 closed by 12
    Toy.mkOpen 7 food,                                        -- 16 already open, by 15
    Toy.mkClose 7 food,                                       -- 17 already closed, by 12
    Toy.mkPad 8 bank food ]                                   -- 18 left over

theorem faulty_audit : Spec.audit Toy.lib none {} faulty = some
    ([ ⟨1, none, .alreadyOpen 0⟩, ⟨3, some 1, .notOpen⟩, ⟨4, some 1, .currency 0⟩, ⟨6, none, .gap ⟨15, 0⟩ nzd⟩,
       ⟨8, none, .padSuperseded 9⟩, ⟨10, none, .padUnneeded⟩, ⟨13, none, .notOpen⟩, ⟨14, some 0, .closed 12⟩,
       ⟨15, none, .closed 12⟩, ⟨16, none, .alreadyOpen 15⟩, ⟨17, none, .alreadyClosed 12⟩ ],
     [ ⟨18, none, .padUnbalanced⟩ ]) := by decide +kernel

/-- All of them are reported. -/
example : ∃ xs ys ys', book Toy.lib id {} faulty = .failure (xs ++ ys') ∧ ys'.Perm ys ∧ xs.length = 11 ∧ ys.length = 1 := by
  have h := C75_reports Toy.lib Toy.lib_lawful id fair_id {} faulty
  rw [show ({} : BookOptions).bookingMethod = none from rfl, show ({} : BookOptions).tolerance = {} from rfl,
    faulty_audit] at h
  obtain ⟨xs, ys, ys', h1, h2, h3, h4⟩ := h
  exact ⟨xs, ys, ys', h1, h2, h3.length_eq, h4.length_eq⟩

/-- A ledger which makes booking panic, after a fault. -/
example : book Toy.lib id {} [Toy.mkOpen 1 bank, Toy.mkOpen 1 bank, Toy.mkPad 2 bank equity,
    Toy.mkBal 3 bank ⟨10, 0⟩ nzd] = .panic := by
  have h := C75_reports Toy.lib Toy.lib_lawful id fair_id {} [Toy.mkOpen 1 bank, Toy.mkOpen 1 bank, Toy.mkPad 2 bank equity,
    Toy.mkBal 3 bank ⟨10, 0⟩ nzd]
  rw [show Spec.audit Toy.lib ({} : BookOptions).bookingMethod ({} : BookOptions).tolerance [Toy.mkOpen 1 bank,
    Toy.mkOpen 1 bank, Toy.mkPad 2 bank equity, Toy.mkBal 3 bank ⟨10, 0⟩ nzd] = none by decide +kernel] at h
  exact h

end Ex

end Limabean
