/-
Booking a ledger with fewer or looser checks goes through the same holdings.
-/
import Verif.Proofs.UnpaddedLemmas
import Verif.Spec.Relaxed

namespace Limabean

open Spec

variable {L : BookLib}

/-- One directive more in `padWaits`. -/
theorem padWaits_snoc (pre : List Raw.Directive) (d : Raw.Directive) (acc : Str) :
    padWaits (pre ++ [d]) acc = match d.variant with
      | .pad p => if p.acc = acc then true else padWaits pre acc
      | .balance b => if b.acc = acc then false else padWaits pre acc
      | _ => padWaits pre acc := by
  unfold padWaits
  rw [List.foldl_append]
  cases hv : d.variant <;> simp only [List.foldl_cons, List.foldl_nil, hv]

/-- The terms of an account, in the relaxed ledger. -/
inductive TermsFreer : Option (Nat × Raw.Open) → Option (Nat × Raw.Open) → Prop
  | none : TermsFreer none none
  | some (i j : Nat) (o : Raw.Open) (cs : Option (List Str)) (h : ∀ c, permits o.currencies c → permits cs c) :
      TermsFreer (some (i, o)) (some (j, { o with currencies := cs }))

/-- What is remembered in the relaxed ledger: the same is held, the same pads are pending, and what may be used may be used. -/
structure Freer (keep : Nat → Bool) (s t : Tally L) : Prop where
  names : t.names = s.names
  held : t.held = s.held
  terms : ∀ a, TermsFreer (s.terms a) (t.terms a)
  unknown : ∀ a, s.standing a = .unknown → t.standing a = .unknown
  opn : ∀ a i, s.standing a = .opn i → ∃ j, t.standing a = .opn j
  account : ∀ a, s.account a = none → t.account a = none
  pending : ∀ a, t.pending a = (s.pending a).map fun x => (countChosen keep x.1, x.2)
  kept : ∀ a k src, s.pending a = some (k, src) → keep k = true

theorem Freer.init (keep : Nat → Bool) : Freer keep (Tally.init L) (Tally.init L) :=
  ⟨rfl, rfl, fun _ => .none, fun _ h => h, fun _ _ h => (by cases h), fun _ h => h, fun _ => rfl, fun _ _ _ h => (by cases h)⟩

section
variable {keep : Nat → Bool} {s t : Tally L}

theorem Freer.total (h : Freer keep s t) (a c : Str) : t.total a c = s.total a c := by
  unfold Tally.total
  rw [h.names, h.held]

theorem Freer.usage (h : Freer keep s t) {a c : Str} (ha : s.usage a c = none) : t.usage a c = none := by
  unfold Tally.usage at *
  cases hx : s.account a with
  | some f => simp [hx] at ha
  | none =>
    rw [hx] at ha
    rw [h.account a hx]
    have := h.terms a
    generalize s.terms a = x at *
    generalize t.terms a = y at *
    cases this with
    | none => rfl
    | some i j o cs hc =>
      simp only at ha ⊢
      split at ha
      · rename_i hp
        exact if_pos (hc c hp)
      · cases ha

theorem Freer.wrongPosting (h : Freer keep s t) {i : Nat} {l : List (Interpolated × Raw.PostingSpec)}
    (hl : s.wrongPosting i l = none) : t.wrongPosting i l = none := by
  induction l generalizing i with
  | nil => rfl
  | cons x l ih =>
    obtain ⟨ip, p⟩ := x
    simp only [Tally.wrongPosting] at hl ⊢
    cases hu : s.usage p.acc ip.currency with
    | some f => rw [hu] at hl; cases hl
    | none =>
      rw [hu] at hl
      rw [h.usage hu]
      exact ih hl

theorem Freer.method (h : Freer keep s t) (option : Option Booking) : t.method option = s.method option := by
  funext a
  unfold Tally.method
  have := h.terms a
  generalize s.terms a = x at *
  generalize t.terms a = y at *
  cases this with
  | none => rfl
  | some i j o cs hc => rfl

end

/-- The pads which are pending are those which wait. -/
def Waits (pre : List Raw.Directive) (s : Tally L) : Prop := ∀ a, (s.pending a).isSome = padWaits pre a

theorem Waits.init : Waits [] (Tally.init L) := fun _ => rfl

theorem Waits.step {option : Option Booking} {tol : Tolerance} {pre : List Raw.Directive} {s s' : Tally L} {n : Nat} {d : Raw.Directive}
    (h : Waits pre s) (hs : s.step option tol n d = some (s', [])) : Waits (pre ++ [d]) s' := by
  intro a
  rw [padWaits_snoc]
  unfold Tally.step at hs
  cases hv : d.variant with
  | opn o =>
    simp only [hv] at hs ⊢
    cases hst : s.standing o.acc <;> simp only [hst, Tally.unchanged, Option.some.injEq, Prod.mk.injEq, and_false,
      List.cons_ne_nil] at hs
    obtain ⟨rfl, -⟩ := hs
    exact h a
  | close c =>
    simp only [hv] at hs ⊢
    cases hst : s.standing c.acc <;> simp only [hst, Tally.unchanged, Option.some.injEq, Prod.mk.injEq, and_false,
      List.cons_ne_nil] at hs
    obtain ⟨rfl, -⟩ := hs
    exact h a
  | transaction x =>
    simp only [hv] at hs ⊢
    cases hb : L.book d.date x.postings tol s.held (s.method option) with
    | error e => simp [hb, Tally.unchanged] at hs
    | ok r =>
      simp only [hb] at hs
      cases hw : s.wrongPosting 0 (r.interpolated.zip x.postings) with
      | some q => simp [hw] at hs
      | none =>
        simp only [hw, Option.some.injEq, Prod.mk.injEq, and_true] at hs
        subst hs
        exact h a
  | balance b =>
    simp only [hv] at hs ⊢
    cases hu : s.usage b.acc b.cur with
    | some f => simp [hu, Tally.unchanged] at hs
    | none =>
      simp only [hu] at hs
      generalize b.units.sub (s.total b.acc b.cur) = gap at hs
      cases hg : gap.abs.gt (toleranceDec tol.multiplier b) <;> cases hp : s.pending b.acc <;> simp only [hg, hp] at hs
      · cases hs
        split
        · rename_i he
          rw [← he, hp]
          rfl
        · exact h a
      · simp at hs
      · simp at hs
      · split at hs
        · cases hs
          simp only [Tally.change]
          split
          · rename_i he
            simp [← he]
          · rename_i he
            rw [Function.update_of_ne (fun hc => he hc.symm)]
            exact h a
        · cases hs
  | pad p =>
    simp only [hv] at hs ⊢
    cases hu : s.account p.acc with
    | some f => simp [hu, Tally.unchanged] at hs
    | none =>
      cases hp : s.pending p.acc with
      | some q => simp [hu, hp] at hs
      | none =>
        simp only [hu, hp, Option.some.injEq, Prod.mk.injEq, and_true] at hs
        subst hs
        split
        · rename_i he
          simp [← he]
        · rename_i he
          simp only
          rw [Function.update_of_ne (fun hc => he hc.symm)]
          exact h a
  | _ =>
    simp only [hv] at hs ⊢
    cases hs
    exact h a

/-- A directive which is left out. -/
theorem Freer.drop {option : Option Booking} {tol : Tolerance} {r : Relaxation} {pre : List Raw.Directive} {s s' t : Tally L} {d : Raw.Directive}
    {n : Nat} (h : Freer r.keep s t) (hw : Waits pre s) (hs : s.step option tol n d = some (s', [])) (hc : isCheck d = true)
    (hb : ∀ b, d.variant = .balance b → padWaits pre b.acc = false) : Freer r.keep s' t ∧ s.fills tol d = none := by
  unfold Tally.step at hs
  cases hv : d.variant with
  | opn o => simp [isCheck, hv] at hc
  | transaction o => simp [isCheck, hv] at hc
  | pad o => simp [isCheck, hv] at hc
  | close c =>
    refine ⟨?_, by simp [Tally.fills, hv]⟩
    simp only [hv] at hs
    cases hst : s.standing c.acc <;> simp only [hst, Tally.unchanged, Option.some.injEq, Prod.mk.injEq, and_false,
      List.cons_ne_nil] at hs
    rename_i i
    obtain ⟨rfl, -⟩ := hs
    refine ⟨h.names, h.held, h.terms, fun a ha => ?_, fun a i ha => ?_, fun a ha => ?_, h.pending, h.kept⟩
    · by_cases he : a = c.acc
      · subst he; simp at ha
      · simp only [Function.update_of_ne he] at ha; exact h.unknown a ha
    · by_cases he : a = c.acc
      · subst he; simp at ha
      · simp only [Function.update_of_ne he] at ha; exact h.opn a i ha
    · by_cases he : a = c.acc
      · subst he; simp [Tally.account] at ha
      · refine h.account a ?_
        unfold Tally.account at ha ⊢
        simpa only [Function.update_of_ne he] using ha
  | balance b =>
    have hp : s.pending b.acc = none := by
      have := hw b.acc
      rw [hb b hv] at this
      simpa using this
    refine ⟨?_, ?_⟩
    · simp only [hv] at hs
      cases hu : s.usage b.acc b.cur with
      | some f => simp [hu, Tally.unchanged] at hs
      | none =>
        simp only [hu, hp] at hs
        generalize b.units.sub (s.total b.acc b.cur) = gap at hs
        cases hg : gap.abs.gt (toleranceDec tol.multiplier b) <;> simp only [hg] at hs
        · cases hs
          exact h
        · simp at hs
    · simp only [Tally.fills, hv, hp]
      split <;> simp_all
  | _ =>
    simp only [hv] at hs
    cases hs
    exact ⟨h, by simp [Tally.fills, hv]⟩

/-- A directive which is kept. -/
theorem Freer.keep {option : Option Booking} {tol : Tolerance} {r : Relaxation} {pre : List Raw.Directive} {s s' t : Tally L} {d : Raw.Directive}
    (h : Freer r.keep s t) (hw : Waits pre s) (hs : s.step option tol pre.length d = some (s', [])) (ha : r.Allows tol.multiplier pre d)
    (hk : r.keep pre.length = true) :
    ∃ t', t.step option tol (countChosen r.keep pre.length) (r.directive pre.length d) = some (t', []) ∧ Freer r.keep s' t' ∧
      t.fills tol (r.directive pre.length d) = (s.fills tol d).map fun x => (countChosen r.keep x.1, x.2) := by
  generalize hn : pre.length = n at *
  generalize hm : countChosen r.keep n = m
  unfold Tally.step at hs
  cases hv : d.variant with
  | opn o =>
    simp only [hv] at hs
    cases hst : s.standing o.acc <;> simp only [hst, Tally.unchanged, Option.some.injEq, Prod.mk.injEq, and_false,
      List.cons_ne_nil] at hs
    obtain ⟨rfl, -⟩ := hs
    have ht := h.unknown _ hst
    refine ⟨{ t with
        names := t.names ++ [o.acc]
        terms := Function.update t.terms o.acc (some (m, { o with currencies := r.currencies n o.currencies }))
        standing := Function.update t.standing o.acc (.opn m)
        held := Function.update t.held o.acc (some L.empty) }, ?_, ⟨?_, ?_, fun a => ?_, fun a hx => ?_, fun a i hx => ?_, fun a hx => ?_, h.pending, h.kept⟩, ?_⟩
    · simp only [Tally.step, Relaxation.directive, hv, ht]
    · simp only [h.names]
    · simp only [h.held]
    · by_cases he : a = o.acc
      · subst he
        simp only [Function.update_self]
        refine .some _ _ _ _ ?_
        have := ha.currencies o hv
        rwa [hn] at this
      · simp only [Function.update_of_ne he]; exact h.terms a
    · by_cases he : a = o.acc
      · subst he; simp at hx
      · simp only [Function.update_of_ne he] at hx ⊢; exact h.unknown a hx
    · by_cases he : a = o.acc
      · subst he; simp
      · simp only [Function.update_of_ne he] at hx ⊢; exact h.opn a i hx
    · by_cases he : a = o.acc
      · subst he; simp [Tally.account]
      · have := h.account a
        unfold Tally.account at this hx ⊢
        simp only [Function.update_of_ne he] at hx ⊢
        exact this hx
    · simp [Tally.fills, Relaxation.directive, hv]
  | close c =>
    simp only [hv] at hs
    cases hst : s.standing c.acc <;> simp only [hst, Tally.unchanged, Option.some.injEq, Prod.mk.injEq, and_false,
      List.cons_ne_nil] at hs
    obtain ⟨rfl, -⟩ := hs
    obtain ⟨j, ht⟩ := h.opn _ _ hst
    refine ⟨{ t with standing := Function.update t.standing c.acc (.closed m) }, ?_, ⟨h.names, h.held, h.terms, fun a hx => ?_, fun a i hx => ?_,
      fun a hx => ?_, h.pending, h.kept⟩, ?_⟩
    · simp only [Tally.step, Relaxation.directive, hv, ht]
    · by_cases he : a = c.acc
      · subst he; simp at hx
      · simp only [Function.update_of_ne he] at hx ⊢; exact h.unknown a hx
    · by_cases he : a = c.acc
      · subst he; simp at hx
      · simp only [Function.update_of_ne he] at hx ⊢; exact h.opn a i hx
    · by_cases he : a = c.acc
      · subst he; simp [Tally.account] at hx
      · have := h.account a
        unfold Tally.account at this hx ⊢
        simp only [Function.update_of_ne he] at hx ⊢
        exact this hx
    · simp [Tally.fills, Relaxation.directive, hv]
  | transaction x =>
    simp only [hv] at hs
    cases hb : L.book d.date x.postings tol s.held (s.method option) with
    | error e => simp [hb, Tally.unchanged] at hs
    | ok q =>
      simp only [hb] at hs
      cases hw : s.wrongPosting 0 (q.interpolated.zip x.postings) with
      | some q => simp [hw] at hs
      | none =>
        simp only [hw, Option.some.injEq, Prod.mk.injEq, and_true] at hs
        subst hs
        exact ⟨{ t with held := q.updated.foldl (fun h aq => Function.update h aq.1 (some aq.2)) s.held },
          by simp only [Tally.step, Relaxation.directive, hv, h.held, h.method, hb, h.wrongPosting hw],
          ⟨h.names, rfl, h.terms, h.unknown, h.opn, h.account, h.pending, h.kept⟩, by simp [Tally.fills, Relaxation.directive, hv]⟩
  | balance b =>
    simp only [hv] at hs
    cases hu : s.usage b.acc b.cur with
    | some f => simp [hu, Tally.unchanged] at hs
    | none =>
      simp only [hu] at hs
      have hu' := h.usage hu
      have htol := ha.tolerance b hv
      rw [hn] at htol
      have hwb := hw b.acc
      generalize hgap : b.units.sub (s.total b.acc b.cur) = gap at hs
      cases hg : gap.abs.gt (toleranceDec tol.multiplier b) <;> cases hp : s.pending b.acc <;> simp only [hg, hp] at hs
      · cases hs
        have hg' : gap.abs.gt (toleranceDec tol.multiplier { b with tolerance := r.tolerance n b.tolerance }) = false := by
          rcases htol with e | ⟨-, e⟩
          · rw [e]; exact hg
          · rw [Bool.eq_false_iff, ne_eq, Dec.gt_iff, tolerance_val] at hg ⊢
            intro hc
            exact hg (lt_of_le_of_lt e hc)
        refine ⟨t, ?_, h, ?_⟩
        · simp only [Tally.step, Relaxation.directive, hv, hu', h.total, h.pending, hp, Option.map_none, hgap, hg']
        · simp only [Tally.fills, Relaxation.directive, hv, h.total, h.pending, hp, Option.map_none, hgap, hg', hg]
      · simp at hs
      · simp at hs
      · rename_i q
        obtain ⟨k, src⟩ := q
        simp only at hs
        have e : r.tolerance n b.tolerance = b.tolerance := by
          rcases htol with e | ⟨e, -⟩
          · exact e
          · rw [hp, e] at hwb; cases hwb
        split at hs
        · rename_i hsrc
          cases hs
          refine ⟨((({ t with pending := Function.update t.pending b.acc none } : Tally L).change b.acc gap b.cur).change src gap.neg b.cur), ?_,
            ⟨h.names, ?_, h.terms, h.unknown, h.opn, h.account, fun a => ?_, fun a k' src' hx => ?_⟩, ?_⟩
          · simp only [Tally.step, Relaxation.directive, hv, hu', h.total, h.pending, hp, Option.map_some, hgap, e, hg, h.names, if_pos hsrc]
          · simp only [Tally.change, h.held]
          · simp only [Tally.change]
            by_cases he : a = b.acc
            · subst he; simp
            · simp only [Function.update_of_ne he]; exact h.pending a
          · simp only [Tally.change] at hx
            by_cases he : a = b.acc
            · subst he; simp at hx
            · simp only [Function.update_of_ne he] at hx; exact h.kept a k' src' hx
          · simp only [Tally.fills, Relaxation.directive, hv, h.total, h.pending, hp, Option.map_some, hgap, e, hg]
        · cases hs
  | pad p =>
    simp only [hv] at hs
    cases hu : s.account p.acc with
    | some f => simp [hu, Tally.unchanged] at hs
    | none =>
      cases hp : s.pending p.acc with
      | some q => simp [hu, hp] at hs
      | none =>
        simp only [hu, hp, Option.some.injEq, Prod.mk.injEq, and_true] at hs
        subst hs
        refine ⟨{ t with pending := Function.update t.pending p.acc (some (m, p.source)) }, ?_,
          ⟨h.names, h.held, h.terms, h.unknown, h.opn, h.account, fun a => ?_, fun a k' src' hx => ?_⟩, ?_⟩
        · simp only [Tally.step, Relaxation.directive, hv, h.account _ hu, h.pending, hp, Option.map_none]
        · by_cases he : a = p.acc
          · subst he; simp [hm]
          · simp only [Function.update_of_ne he]; exact h.pending a
        · by_cases he : a = p.acc
          · subst he
            simp only [Function.update_self, Option.some.injEq, Prod.mk.injEq] at hx
            rw [← hx.1]
            exact hk
          · simp only [Function.update_of_ne he] at hx; exact h.kept a k' src' hx
        · simp [Tally.fills, Relaxation.directive, hv]
  | _ =>
    simp only [hv] at hs
    cases hs
    exact ⟨t, by simp only [Tally.step, Relaxation.directive, hv], h, by simp [Tally.fills, Relaxation.directive, hv]⟩

theorem Freer.emits {r : Relaxation} {s t : Tally L} (h : Freer r.keep s t) (option : Option Booking) (tol : Tolerance) (n : Nat) (d : Raw.Directive) :
    t.emits option tol (countChosen r.keep n) (r.directive n d) = (s.emits option tol n d).map r.booked := by
  unfold Tally.emits Tally.variants Relaxation.directive
  cases hv : d.variant with
  | transaction x =>
    simp only [hv, h.held, h.method]
    cases L.book d.date x.postings tol s.held (s.method option) <;> rfl
  | _ => simp only [hv]; rfl

theorem warns_relaxed (r : Relaxation) (n : Nat) (d : Raw.Directive) :
    warns L (countChosen r.keep n) (r.directive n d) = (warns L n d).map (renumberedReport (countChosen r.keep)) := by
  unfold warns Relaxation.directive
  cases hv : d.variant with
  | opn o =>
    simp only
    cases o.booking with
    | none => rfl
    | some b => simp only; split <;> rfl
  | _ => simp only [hv]; rfl

/-- All the directives. -/
theorem Freer.run {option : Option Booking} {tol : Tolerance} {r : Relaxation} (ds : List Raw.Directive) {pre : List Raw.Directive} {s s' t : Tally L}
    (h : Freer r.keep s t) (hw : Waits pre s) (hs : Tally.run option tol pre.length s ds = some (s', []))
    (ha : ∀ x d y, ds = x ++ d :: y → r.Allows tol.multiplier (pre ++ x) d) :
    ∃ t', Tally.run option tol (countChosen r.keep pre.length) t (r.fromNumber pre.length ds) = some (t', []) ∧ Freer r.keep s' t' ∧
      emitted option tol (Tally.history option tol (countChosen r.keep pre.length) t (r.fromNumber pre.length ds)) =
        ((emitted option tol (Tally.history option tol pre.length s ds)).filter fun b => r.keep b.idx).map r.booked ∧
      filled tol (Tally.history option tol (countChosen r.keep pre.length) t (r.fromNumber pre.length ds)) =
        (filled tol (Tally.history option tol pre.length s ds)).map (fun x => (countChosen r.keep x.1, x.2)) ∧
      (∀ x ∈ filled tol (Tally.history option tol pre.length s ds), r.keep x.1 = true) ∧
      ((r.fromNumber pre.length ds).zipIdx (countChosen r.keep pre.length)).flatMap (fun x => warns L x.2 x.1) =
        ((ds.zipIdx pre.length).flatMap fun x => warns L x.2 x.1).map (renumberedReport (countChosen r.keep)) := by
  induction ds generalizing s t pre with
  | nil =>
    simp only [Tally.run, Option.some.injEq, Prod.mk.injEq, and_true] at hs
    subst hs
    exact ⟨t, rfl, h, rfl, rfl, by simp [filled, Tally.history], rfl⟩
  | cons d ds ih =>
    simp only [Tally.run] at hs
    cases hs1 : s.step option tol pre.length d with
    | none => simp [hs1] at hs
    | some q =>
      obtain ⟨s1, fs⟩ := q
      simp only [hs1] at hs
      cases hs2 : Tally.run option tol (pre.length + 1) s1 ds with
      | none => simp [hs2] at hs
      | some q =>
        obtain ⟨s2, fs'⟩ := q
        simp only [hs2, Option.some.injEq, Prod.mk.injEq, List.append_eq_nil_iff] at hs
        obtain ⟨rfl, rfl, rfl⟩ := hs
        have ha0 := ha [] d ds rfl
        rw [List.append_nil] at ha0
        have hw1 := hw.step hs1
        have hlen : (pre ++ [d]).length = pre.length + 1 := by simp
        have ha1 : ∀ x e y, ds = x ++ e :: y → r.Allows tol.multiplier (pre ++ [d] ++ x) e := by
          intro x e y he
          have := ha (d :: x) e y (by rw [he]; rfl)
          simpa using this
        have hkf : ∀ x ∈ (s.fills tol d).toList, r.keep x.1 = true := by
          intro x hx
          obtain ⟨k, ps⟩ := x
          obtain ⟨b, src, hp, -⟩ := fills_pending (Option.mem_toList.1 hx)
          exact h.kept _ _ _ hp
        cases hk : r.keep pre.length with
        | false =>
          obtain ⟨h1, hf⟩ := h.drop hw hs1 (ha0.drop hk).1 (ha0.drop hk).2
          obtain ⟨t', g1, g2, g3, g4, g5, g6⟩ := ih (pre := pre ++ [d]) h1 hw1 (by rw [hlen]; exact hs2) ha1
          have hc : countChosen r.keep (pre.length + 1) = countChosen r.keep pre.length := by simp [countChosen, hk]
          have hl : r.fromNumber pre.length (d :: ds) = r.fromNumber (pre.length + 1) ds := by simp [Relaxation.fromNumber, hk]
          rw [hlen, hc] at g1 g3 g4 g6
          rw [hlen] at g5
          rw [hl]
          refine ⟨t', g1, g2, ?_, ?_, ?_, ?_⟩
          · rw [g3]
            simp only [emitted, Tally.history, hs1, List.flatMap_cons, List.filter_append]
            rw [show (s.emits option tol pre.length d).filter (fun b => r.keep b.idx) = [] from
              List.filter_eq_nil_iff.2 fun b hb => by rw [emits_idx hb, hk]; simp, List.nil_append]
          · rw [g4]
            simp only [Tally.history, hs1]
            rw [filled_cons, hf]
            rfl
          · simp only [Tally.history, hs1]
            rw [filled_cons, hf]
            exact g5
          · rw [g6]
            simp only [List.zipIdx_cons, List.flatMap_cons, List.map_append]
            have : warns L pre.length d = [] := by
              have hcheck := (ha0.drop hk).1
              clear * - hcheck
              unfold isCheck at hcheck
              unfold warns
              split
              · rename_i hv
                simp [hv] at hcheck
              · rfl
            rw [this]
            rfl
        | true =>
          obtain ⟨t1, k1, k2, k3⟩ := h.keep hw hs1 ha0 hk
          obtain ⟨t', g1, g2, g3, g4, g5, g6⟩ := ih (pre := pre ++ [d]) k2 hw1 (by rw [hlen]; exact hs2) ha1
          have hc : countChosen r.keep (pre.length + 1) = countChosen r.keep pre.length + 1 := by simp [countChosen, hk]
          have hl : r.fromNumber pre.length (d :: ds) = r.directive pre.length d :: r.fromNumber (pre.length + 1) ds := by
            simp [Relaxation.fromNumber, hk]
          rw [hlen, hc] at g1 g3 g4 g6
          rw [hlen] at g5
          rw [hl]
          refine ⟨t', ?_, g2, ?_, ?_, ?_, ?_⟩
          · simp only [Tally.run, k1, g1, List.append_nil]
          · simp only [emitted, Tally.history, hs1, k1, List.flatMap_cons, List.filter_append, List.map_append] at g3 ⊢
            rw [g3, h.emits]
            congr 1
            rw [List.filter_eq_self.2 (fun b hb => by rw [emits_idx hb]; exact hk)]
          · simp only [Tally.history, hs1, k1]
            rw [filled_cons, filled_cons, List.map_append, g4, k3]
            cases s.fills tol d <;> rfl
          · simp only [Tally.history, hs1]
            rw [filled_cons]
            intro x hx
            rcases List.mem_append.1 hx with hx | hx
            · exact hkf x hx
            · exact g5 x hx
          · simp only [List.zipIdx_cons, List.flatMap_cons, List.map_append]
            rw [g6, warns_relaxed]

theorem countChosen_mono (keep : Nat → Bool) {a b : Nat} (h : a ≤ b) : countChosen keep a ≤ countChosen keep b := by
  induction b with
  | zero => rw [Nat.le_zero.1 h]
  | succ b ih =>
    rcases Nat.lt_or_ge b a with hb | hb
    · rw [show a = b + 1 by omega]
    · exact (ih hb).trans (by simp [countChosen])

theorem countChosen_inj {keep : Nat → Bool} {a b : Nat} (ha : keep a = true) (hb : keep b = true) (h : countChosen keep a = countChosen keep b) :
    a = b := by
  have key : ∀ {a b : Nat}, keep a = true → a < b → countChosen keep a < countChosen keep b := by
    intro a b ha hab
    have := countChosen_mono keep (show a + 1 ≤ b from hab)
    simp only [countChosen, ha, Bool.toNat_true] at this
    omega
  rcases Nat.lt_trichotomy a b with hl | hl | hl
  · have := key ha hl; omega
  · exact hl
  · have := key hb hl; omega

/-- Filling pads and relaxing. -/
theorem fillIn_relaxed {r : Relaxation} {F : List (Nat × List Booked.Posting)} (hF : ∀ x ∈ F, r.keep x.1 = true) {d : Booked.Directive}
    (hd : r.keep d.idx = true) : fillIn (F.map fun x => (countChosen r.keep x.1, x.2)) (r.booked d) = r.booked (fillIn F d) := by
  have hfind : (F.map fun x => (countChosen r.keep x.1, x.2)).find? (fun x => x.1 = (r.booked d).idx) =
      (F.find? fun x => x.1 = d.idx).map fun x => (countChosen r.keep x.1, x.2) := by
    induction F with
    | nil => rfl
    | cons x F ih =>
      have ih := ih fun y hy => hF y (by simp [hy])
      simp only [List.map_cons, List.find?_cons]
      by_cases h : x.1 = d.idx
      · simp [h, Relaxation.booked]
      · have : countChosen r.keep x.1 ≠ (r.booked d).idx := fun hc => h (countChosen_inj (hF x (by simp)) hd hc)
        simp only [h, this, decide_false]
        exact ih
  unfold fillIn
  rw [hfind]
  obtain ⟨i, date, tags, links, md, v⟩ := d
  unfold Relaxation.booked
  simp only
  cases F.find? fun x => x.1 = i with
  | none => cases v <;> rfl
  | some z => cases v <;> rfl

end Limabean
