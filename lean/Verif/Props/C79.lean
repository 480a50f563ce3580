/-
C79: with the plugin auto_accounts, accounts need not be opened.

False for accounts which only assertions and pads use (`C79_false`).
-/
import Verif.Props.C39
import Verif.Props.C75

namespace Limabean

open Spec Clj

variable {L : BookLib}

/-! ### Where a fault is found -/

theorem finding_at {opt : Option Booking} {tol : Tolerance} (ds : List Raw.Directive) {n : Nat} {s s' : Tally L} {fs : List Finding}
    (h : Tally.run opt tol n s ds = some (s', fs)) {f : Finding} (hf : f ∈ fs) :
    ∃ pre d post s1 fs1 s2 fs2, ds = pre ++ d :: post ∧ Tally.run opt tol n s pre = some (s1, fs1) ∧
      s1.step opt tol (n + pre.length) d = some (s2, fs2) ∧ f ∈ fs2 := by
  induction ds generalizing n s fs with
  | nil =>
    simp only [Tally.run, Option.some.injEq, Prod.mk.injEq] at h
    rw [← h.2] at hf
    cases hf
  | cons d ds ih =>
    simp only [Tally.run] at h
    cases h1 : s.step opt tol n d with
    | none => rw [h1] at h; cases h
    | some q =>
      obtain ⟨s1, fs1⟩ := q
      rw [h1] at h
      simp only at h
      cases h2 : Tally.run opt tol (n + 1) s1 ds with
      | none => rw [h2] at h; cases h
      | some q =>
        obtain ⟨s2, fs2⟩ := q
        rw [h2] at h
        simp only [Option.some.injEq, Prod.mk.injEq] at h
        obtain ⟨rfl, rfl⟩ := h
        rcases List.mem_append.1 hf with hf | hf
        · exact ⟨[], d, ds, s, [], s1, fs1, rfl, rfl, h1, hf⟩
        · obtain ⟨pre, e, post, s3, fs3, s4, fs4, rfl, h3, h4, h5⟩ := ih h2 hf
          refine ⟨d :: pre, e, post, s3, fs1 ++ fs3, s4, fs4, rfl, ?_, ?_, h5⟩
          · simp only [Tally.run, h1, h3]
          · rw [show n + (d :: pre).length = n + 1 + pre.length by simp; omega]
            exact h4

theorem account_notOpen {s : Tally L} {acc : Str} (h : s.account acc = some .notOpen) : s.standing acc = .unknown := by
  unfold Tally.account at h
  split at h <;> first | assumption | simp at h

theorem usage_notOpen {s : Tally L} {acc cur : Str} (h : s.usage acc cur = some .notOpen) : s.standing acc = .unknown := by
  unfold Tally.usage at h
  cases ha : s.account acc with
  | some g =>
    rw [ha] at h
    simp only [Option.some.injEq] at h
    subst h
    exact account_notOpen ha
  | none =>
    rw [ha] at h
    cases ht : s.terms acc with
    | none => simp [ht] at h
    | some x =>
      simp only [ht] at h
      split at h <;> simp at h

theorem wrongPosting_mem {s : Tally L} (l : List (Interpolated × Raw.PostingSpec)) {i j : Nat} {f : Fault}
    (h : s.wrongPosting i l = some (j, f)) : ∃ x ∈ l, s.usage x.2.acc x.1.currency = some f := by
  induction l generalizing i with
  | nil => cases h
  | cons x l ih =>
    obtain ⟨ip, p⟩ := x
    simp only [Tally.wrongPosting] at h
    cases hu : s.usage p.acc ip.currency with
    | none =>
      rw [hu] at h
      obtain ⟨x, hx, h⟩ := ih h
      exact ⟨x, by simp [hx], h⟩
    | some g =>
      rw [hu] at h
      simp only [Option.some.injEq, Prod.mk.injEq] at h
      obtain ⟨-, rfl⟩ := h
      exact ⟨(ip, p), by simp, hu⟩

theorem wrongPosting_none {s : Tally L} (l : List (Interpolated × Raw.PostingSpec)) {i : Nat}
    (h : s.wrongPosting i l = none) : ∀ x ∈ l, s.usage x.2.acc x.1.currency = none := by
  induction l generalizing i with
  | nil => simp
  | cons x l ih =>
    obtain ⟨ip, p⟩ := x
    simp only [Tally.wrongPosting] at h
    cases hu : s.usage p.acc ip.currency with
    | none =>
      rw [hu] at h
      intro y hy
      rcases List.mem_cons.1 hy with rfl | hy
      · exact hu
      · exact ih h y hy
    | some g => rw [hu] at h; cases h

/-- Where an account is found not to be open. -/
theorem step_notOpen {opt : Option Booking} {tol : Tolerance} {s s' : Tally L} {n : Nat} {d : Raw.Directive} {fs : List Finding}
    (h : s.step opt tol n d = some (s', fs)) {f : Finding} (hf : f ∈ fs) (hg : f.fault = .notOpen) :
    f.directive = n ∧ ((∃ t, d.variant = .transaction t ∧ ∃ p ∈ t.postings, s.standing p.acc = .unknown) ∨
      (∃ b, d.variant = .balance b ∧ s.standing b.acc = .unknown) ∨ (∃ p, d.variant = .pad p ∧ s.standing p.acc = .unknown) ∨
      ∃ c, d.variant = .close c) := by
  unfold Tally.step at h
  cases hv : d.variant with
  | opn o =>
    simp only [hv] at h
    split at h <;> simp only [Tally.unchanged, Option.some.injEq, Prod.mk.injEq] at h <;> obtain ⟨-, rfl⟩ := h <;>
      simp only [List.mem_singleton, List.not_mem_nil] at hf <;> subst hf <;> cases hg
  | close c =>
    simp only [hv] at h
    refine ⟨?_, Or.inr (Or.inr (Or.inr ⟨c, rfl⟩))⟩
    split at h <;> simp only [Tally.unchanged, Option.some.injEq, Prod.mk.injEq] at h <;> obtain ⟨-, rfl⟩ := h <;>
      simp only [List.mem_singleton, List.not_mem_nil] at hf <;> subst hf <;> rfl
  | transaction t =>
    simp only [hv] at h
    split at h
    · simp only [Tally.unchanged, Option.some.injEq, Prod.mk.injEq] at h
      obtain ⟨-, rfl⟩ := h
      simp only [List.mem_singleton] at hf
      subst hf
      cases hg
    · split at h
      · rename_i i g hw
        simp only [Option.some.injEq, Prod.mk.injEq] at h
        obtain ⟨-, rfl⟩ := h
        simp only [List.mem_singleton] at hf
        subst hf
        refine ⟨rfl, Or.inl ⟨t, rfl, ?_⟩⟩
        dsimp only at hg
        subst hg
        obtain ⟨x, hx, hu⟩ := wrongPosting_mem _ hw
        exact ⟨x.2, (List.of_mem_zip hx).2, usage_notOpen hu⟩
      · simp only [Option.some.injEq, Prod.mk.injEq] at h
        obtain ⟨-, rfl⟩ := h
        cases hf
  | pad p =>
    simp only [hv] at h
    cases ha : s.account p.acc with
    | some g =>
      simp only [ha, Tally.unchanged, Option.some.injEq, Prod.mk.injEq] at h
      obtain ⟨-, rfl⟩ := h
      simp only [List.mem_singleton] at hf
      subst hf
      dsimp only at hg
      subst hg
      exact ⟨rfl, Or.inr (Or.inr (Or.inl ⟨p, rfl, account_notOpen ha⟩))⟩
    | none =>
      cases hp : s.pending p.acc with
      | none =>
        simp only [ha, hp, Option.some.injEq, Prod.mk.injEq] at h
        obtain ⟨-, rfl⟩ := h
        cases hf
      | some x =>
        simp only [ha, hp, Option.some.injEq, Prod.mk.injEq] at h
        obtain ⟨-, rfl⟩ := h
        simp only [List.mem_singleton] at hf
        subst hf
        cases hg
  | balance b =>
    simp only [hv] at h
    cases hu : s.usage b.acc b.cur with
    | some g =>
      simp only [hu, Tally.unchanged, Option.some.injEq, Prod.mk.injEq] at h
      obtain ⟨-, rfl⟩ := h
      simp only [List.mem_singleton] at hf
      subst hf
      dsimp only at hg
      subst hg
      exact ⟨rfl, Or.inr (Or.inl ⟨b, rfl, usage_notOpen hu⟩)⟩
    | none =>
      simp only [hu] at h
      cases hgt : (b.units.sub (s.total b.acc b.cur)).abs.gt (toleranceDec tol.multiplier b) <;>
        cases hp : s.pending b.acc <;> simp only [hgt, hp] at h
      · cases h; cases hf
      · cases h
        simp only [List.mem_singleton] at hf
        subst hf
        cases hg
      · cases h
        simp only [List.mem_singleton] at hf
        subst hf
        cases hg
      · split at h
        · cases h; cases hf
        · cases h
  | _ =>
    simp only [hv, Option.some.injEq, Prod.mk.injEq] at h
    obtain ⟨-, rfl⟩ := h
    cases hf

theorem announces_of {xs : List IndexedReport} {fs : List Finding} (h : List.Forall₂ Announces xs fs) {rep : IndexedReport}
    (hr : rep ∈ xs) : ∃ f ∈ fs, Announces rep f := by
  induction h with
  | nil => cases hr
  | cons hh _ ih =>
    rcases List.mem_cons.1 hr with rfl | hr
    · exact ⟨_, by simp, hh⟩
    · obtain ⟨f, h1, h2⟩ := ih hr
      exact ⟨f, by simp [h1], h2⟩

/-- Where booking reports that an account is not open. -/
theorem notOpen_where (hL : L.Lawful) {order : AMap Str (Account L) → AMap Str (Account L)}
    (hf : ∀ m, (order m).Perm m) {o : BookOptions} {ds : List Raw.Directive} {es : List IndexedReport}
    (h : book L order o ds = .failure es) {rep : IndexedReport} (hr : rep ∈ es) (hreason : rep.reason = .accountNotOpen) :
    ∃ pre d post, ds = pre ++ d :: post ∧ rep.idx.directive = pre.length ∧
      ((∃ a, Uses a d ∧ ∀ x ∈ pre, ¬ Opens a x) ∨ (∃ b, d.variant = .balance b ∧ ∀ x ∈ pre, ¬ Opens b.acc x) ∨
        (∃ p, d.variant = .pad p ∧ ∀ x ∈ pre, ¬ Opens p.acc x) ∨ ∃ c, d.variant = .close c) := by
  have hc := C75_reports L hL order hf o ds
  unfold audit at hc
  cases ht : Tally.run o.bookingMethod o.tolerance 0 (Tally.init L) ds with
  | none => rw [ht] at hc; simp only [Option.map_none] at hc; rw [h] at hc; cases hc
  | some q =>
    obtain ⟨s, fs⟩ := q
    rw [ht] at hc
    simp only [Option.map_some] at hc
    obtain ⟨f, hfm, ha⟩ : ∃ f ∈ fs, Announces rep f := by
      have hps : ∀ f ∈ s.unbalanced, f.fault = .padUnbalanced := by
        intro f hf
        obtain ⟨a, -, ha⟩ := List.mem_filterMap.1 hf
        cases hp : s.pending a with
        | none => rw [hp] at ha; cases ha
        | some p => rw [hp] at ha; cases ha; rfl
      generalize s.unbalanced = ps at hc hps
      have main : (∃ xs ys ys', book L order o ds = .failure (xs ++ ys') ∧ ys'.Perm ys ∧
          List.Forall₂ Announces xs fs ∧ List.Forall₂ Announces ys ps) → ∃ f ∈ fs, Announces rep f := by
        rintro ⟨xs, ys, ys', h1, h2, h3, h4⟩
        rw [h] at h1
        cases h1
        rcases List.mem_append.1 hr with hr | hr
        · exact announces_of h3 hr
        · exfalso
          obtain ⟨f, hf, ha⟩ := announces_of h4 (h2.mem_iff.1 hr)
          have := ha.said
          rw [hps f hf, hreason] at this
          cases this
      rcases fs with _ | ⟨f, fs⟩ <;> rcases ps with _ | ⟨p, ps⟩
      · obtain ⟨_, _, hc⟩ := hc; rw [h] at hc; cases hc
      all_goals exact main hc
    have hg : f.fault = .notOpen := by
      have := ha.said
      rw [hreason] at this
      generalize f.fault = g at this
      generalize rep.related = rel at this
      cases this
      rfl
    obtain ⟨pre, d, post, s1, fs1, s2, fs2, rfl, h1, h2, h3⟩ := finding_at ds ht hfm
    have hop : Tally.Opened ([] ++ pre) s1 := (Tally.Opened.init L).run pre h1
    rw [List.nil_append] at hop
    have never : ∀ a, s1.standing a = .unknown → ∀ x ∈ pre, ¬ Opens a x := by
      rintro a hs x hx ⟨o, ho, rfl⟩
      exact (hop.standing _).1 hs ((hop.names _).2 ⟨x, hx, o, ho, rfl⟩)
    obtain ⟨k1, k2⟩ := step_notOpen h2 h3 hg
    refine ⟨pre, d, post, rfl, by rw [ha.place]; simpa using k1, ?_⟩
    rcases k2 with ⟨t, hv, p, hp, hs⟩ | ⟨b, hv, hs⟩ | ⟨p, hv, hs⟩ | hc
    · exact Or.inl ⟨p.acc, ⟨t, hv, p, hp, rfl⟩, never _ hs⟩
    · exact Or.inr (Or.inl ⟨b, hv, never _ hs⟩)
    · exact Or.inr (Or.inr (Or.inl ⟨p, hv, never _ hs⟩))
    · exact Or.inr (Or.inr (Or.inr hc))

/-! ### The plugin -/

/-- A directive which the plugin has not inserted, and before which it inserts nothing. -/
theorem completed_split {ds out : List Raw.Directive} (h : Completed ds out) :
    ∀ {a b : List Raw.Directive} {d : Raw.Directive}, out = a ++ d :: b → (∀ x, d.variant ≠ .opn x) →
    (∀ x, d.variant ≠ .transaction x) → ∃ pre post, ds = pre ++ d :: post ∧ Completed pre a := by
  induction h with
  | nil => intro a b d h; simp at h
  | @snoc ds out e g h hg ih =>
    intro a b d heq hno hnt
    rcases List.eq_nil_or_concat b with rfl | ⟨b, z, rfl⟩
    · have heq : (out ++ List.map (autoOpen e.date) g) ++ [e] = a ++ [d] := heq
      obtain ⟨h1, h2⟩ := List.append_inj' heq rfl
      cases h2
      have hg0 : g = [] := by
        rcases g with _ | ⟨x, g⟩
        · rfl
        · obtain ⟨⟨t, ht, -⟩, -⟩ := (hg.mem x).1 (by simp)
          exact absurd ht (hnt t)
      subst hg0
      rw [List.map_nil, List.append_nil] at h1
      subst h1
      exact ⟨ds, [], rfl, h⟩
    · have heq : (out ++ List.map (autoOpen e.date) g) ++ [e] = (a ++ d :: b) ++ [z] := by simpa using heq
      obtain ⟨h1, h2⟩ := List.append_inj' heq rfl
      rcases List.append_eq_append_iff.1 h1 with ⟨c, h3, h4⟩ | ⟨c, h3, h4⟩
      · exfalso
        have : d ∈ List.map (autoOpen e.date) g := by rw [h4]; simp
        obtain ⟨x, -, rfl⟩ := List.mem_map.1 this
        exact hno _ rfl
      · rcases c with _ | ⟨c0, c⟩
        · exfalso
          simp only [List.nil_append] at h4
          have : d ∈ List.map (autoOpen e.date) g := by rw [← h4]; simp
          obtain ⟨x, -, rfl⟩ := List.mem_map.1 this
          exact hno _ rfl
        · simp only [List.cons_append, List.cons.injEq] at h4
          obtain ⟨rfl, h4⟩ := h4
          obtain ⟨pre, post, rfl, hc⟩ := ih h3 hno hnt
          exact ⟨pre, post ++ [e], by simp, hc⟩

/-- What is opened or used is opened. -/
theorem completed_opens {ds out : List Raw.Directive} (h : Completed ds out) {a : Str} :
    ∀ {e : Raw.Directive}, e ∈ ds → Opens a e ∨ Uses a e → ∃ x ∈ out, Opens a x := by
  induction h with
  | nil => intro e he; cases he
  | @snoc ds out d g h hg ih =>
    intro e he hu
    rcases List.mem_append.1 he with he | he
    · obtain ⟨x, hx, ho⟩ := ih he hu
      exact ⟨x, by simp [hx], ho⟩
    · rw [List.mem_singleton] at he
      subst he
      rcases hu with hu | hu
      · exact ⟨e, by simp, hu⟩
      · by_cases hd : ∃ x ∈ ds, Opens a x ∨ Uses a x
        · obtain ⟨x, hx, hxa⟩ := hd
          obtain ⟨y, hy, hyo⟩ := ih hx hxa
          exact ⟨y, by simp [hy], hyo⟩
        · have : a ∈ g := (hg.mem a).2 ⟨hu, fun x hx => ⟨fun h => hd ⟨x, hx, Or.inl h⟩, fun h => hd ⟨x, hx, Or.inr h⟩⟩⟩
          exact ⟨autoOpen e.date a, by simp only [List.mem_append, List.mem_map]; exact Or.inl (Or.inr ⟨a, this, rfl⟩),
            ⟨_, rfl, rfl⟩⟩

/-- C79, partial: with the plugin, a report that an account is not open is never about a transaction; it is about an assertion, a pad or a
close, and for an assertion or a pad no directive before it opens the account, nor does a transaction use it. Missing: assertions and
pads on accounts which nothing else uses, where it is false. -/
theorem C79_partial (L : BookLib) (hL : L.Lawful) (order : AMap Str (Account L) → AMap Str (Account L))
    (hf : ∀ m, (order m).Perm m) (o : BookOptions) (ds : List Raw.Directive) (es : List IndexedReport)
    (h : book L order o (autoAccounts .inPlace ds) = .failure es) (rep : IndexedReport) (hr : rep ∈ es)
    (hreason : rep.reason = .accountNotOpen) :
    ∃ pre d post, ds = pre ++ d :: post ∧ rep.idx.directive = (autoAccounts .inPlace pre).length ∧
      ((∃ b, d.variant = .balance b ∧ ∀ x ∈ pre, ¬ Opens b.acc x ∧ ¬ Uses b.acc x) ∨
       (∃ p, d.variant = .pad p ∧ ∀ x ∈ pre, ¬ Opens p.acc x ∧ ¬ Uses p.acc x) ∨
       ∃ c, d.variant = .close c) := by
  obtain ⟨a, d, b, h1, h2, h3⟩ := notOpen_where hL hf h hr hreason
  have back : (∀ x, d.variant ≠ .opn x) → (∀ x, d.variant ≠ .transaction x) →
      ∃ pre post, ds = pre ++ d :: post ∧ autoAccounts .inPlace pre = a := by
    intro hno hnt
    obtain ⟨pre, post, h4, h5⟩ := completed_split (C39_completed ds) h1 hno hnt
    exact ⟨pre, post, h4, C39_unique _ _ _ (C39_completed pre) h5⟩
  have never : ∀ {pre : List Raw.Directive} {acc : Str}, autoAccounts .inPlace pre = a → (∀ x ∈ a, ¬ Opens acc x) →
      ∀ x ∈ pre, ¬ Opens acc x ∧ ¬ Uses acc x := by
    rintro pre acc rfl hn x hx
    constructor
    · intro ho
      obtain ⟨y, hy, hyo⟩ := completed_opens (C39_completed pre) hx (Or.inl ho)
      exact hn y hy hyo
    · intro ho
      obtain ⟨y, hy, hyo⟩ := completed_opens (C39_completed pre) hx (Or.inr ho)
      exact hn y hy hyo
  rcases h3 with ⟨acc, hu, hn⟩ | ⟨x, hv, hn⟩ | ⟨x, hv, hn⟩ | ⟨c, hv⟩
  · obtain ⟨e, he, ho⟩ := C39_opened_first ds a b d acc h1 hu
    exact absurd ho (hn e he)
  · obtain ⟨pre, post, h4, h5⟩ := back (by simp [hv]) (by simp [hv])
    exact ⟨pre, d, post, h4, by rw [h5, h2], Or.inl ⟨x, hv, never h5 hn⟩⟩
  · obtain ⟨pre, post, h4, h5⟩ := back (by simp [hv]) (by simp [hv])
    exact ⟨pre, d, post, h4, by rw [h5, h2], Or.inr (Or.inl ⟨x, hv, never h5 hn⟩)⟩
  · obtain ⟨pre, post, h4, h5⟩ := back (by simp [hv]) (by simp [hv])
    exact ⟨pre, d, post, h4, by rw [h5, h2], Or.inr (Or.inr ⟨c, hv⟩)⟩

/-- C79, partial: with the plugin, booking panics only if there is an assertion on an account with a pad before it, from a source which
no directive before the assertion opens, and no transaction before it uses. -/
theorem C79_panic_partial (L : BookLib) (hL : L.Lawful) (order : AMap Str (Account L) → AMap Str (Account L))
    (hf : ∀ m, (order m).Perm m) (o : BookOptions) (ds : List Raw.Directive)
    (h : book L order o (autoAccounts .inPlace ds) = .panic) :
    ∃ pre d post b q p, ds = pre ++ d :: post ∧ d.variant = .balance b ∧ q ∈ pre ∧ q.variant = .pad p ∧ p.acc = b.acc ∧
      ∀ x ∈ pre, ¬ Opens p.source x ∧ ¬ Uses p.source x := by
  obtain ⟨a, d, b, bal, s, fs, k, q, p, h1, h2, -, -, -, h6, h7, h8, h9, -⟩ := (C13_panics_iff L hL order hf o _).1 h
  obtain ⟨pre, post, h4, h5⟩ := completed_split (C39_completed ds) h1 (by simp [h2]) (by simp [h2])
  have hq : q ∈ pre := by
    obtain ⟨a1, a2, rfl⟩ := List.append_of_mem (List.mem_of_getElem? h6)
    obtain ⟨pre', post', rfl, -⟩ := completed_split h5 rfl (by simp [h7]) (by simp [h7])
    simp
  refine ⟨pre, d, post, bal, q, p, h4, h2, hq, h7, h8, ?_⟩
  intro x hx
  constructor
  · intro ho
    obtain ⟨y, hy, op, hyo, ha⟩ := completed_opens h5 hx (Or.inl ho)
    exact h9 y hy op hyo ha
  · intro ho
    obtain ⟨y, hy, op, hyo, ha⟩ := completed_opens h5 hx (Or.inr ho)
    exact h9 y hy op hyo ha

/-- In a run without faults no directive has one. -/
theorem tally_clean {L : BookLib} {m : Option Booking} {tol : Tolerance} {d : Raw.Directive} {post : List Raw.Directive}
    {s3 : Tally L} {pre : List Raw.Directive} {n : Nat} {s0 : Tally L}
    (ht : Tally.run m tol n s0 (pre ++ d :: post) = some (s3, [])) :
    ∃ s1 s2, Tally.run m tol n s0 pre = some (s1, []) ∧ s1.step m tol (n + pre.length) d = some (s2, []) := by
  induction pre generalizing n s0 s3 with
  | nil =>
    simp only [List.nil_append, Tally.run] at ht
    cases hs : s0.step m tol n d with
    | none => rw [hs] at ht; cases ht
    | some q =>
      obtain ⟨s2, fs⟩ := q
      rw [hs] at ht
      simp only at ht
      cases h2 : Tally.run m tol (n + 1) s2 post with
      | none => rw [h2] at ht; cases ht
      | some q =>
        obtain ⟨s3, fs3⟩ := q
        rw [h2] at ht
        simp only [Option.some.injEq, Prod.mk.injEq, List.append_eq_nil_iff] at ht
        obtain ⟨-, rfl, -⟩ := ht
        exact ⟨s0, s2, rfl, by simpa using hs⟩
  | cons e pre ih =>
    simp only [List.cons_append, Tally.run] at ht ⊢
    cases hs : s0.step m tol n e with
    | none => rw [hs] at ht; cases ht
    | some q =>
      obtain ⟨s2, fs⟩ := q
      rw [hs] at ht
      simp only at ht ⊢
      cases h2 : Tally.run m tol (n + 1) s2 (pre ++ d :: post) with
      | none => rw [h2] at ht; cases ht
      | some q =>
        obtain ⟨s3, fs3⟩ := q
        rw [h2] at ht
        simp only [Option.some.injEq, Prod.mk.injEq, List.append_eq_nil_iff] at ht
        obtain ⟨rfl, rfl, rfl⟩ := ht
        obtain ⟨s4, s5, h3, h4⟩ := ih h2
        refine ⟨s4, s5, by rw [h3]; rfl, ?_⟩
        rw [show n + (e :: pre).length = n + 1 + pre.length by simp; omega]
        exact h4

/-- C79: a ledger which is accepted is left as it is. -/
theorem C79_unneeded (L : BookLib) (hL : L.Lawful) (order : AMap Str (Account L) → AMap Str (Account L))
    (hf : ∀ m, (order m).Perm m) (o : BookOptions) (ds : List Raw.Directive) (out : List Booked.Directive)
    (w : List IndexedReport) (h : book L order o ds = .success out w) : autoAccounts .inPlace ds = ds := by
  have hc := C75_reports L hL order hf o ds
  unfold audit at hc
  obtain ⟨s, ht⟩ : ∃ s, Tally.run o.bookingMethod o.tolerance 0 (Tally.init L) ds = some (s, []) := by
    cases ht : Tally.run o.bookingMethod o.tolerance 0 (Tally.init L) ds with
    | none => rw [ht] at hc; simp only [Option.map_none] at hc; rw [h] at hc; cases hc
    | some q =>
      obtain ⟨s, fs⟩ := q
      rw [ht] at hc
      simp only [Option.map_some] at hc
      generalize s.unbalanced = ps at hc
      rcases fs with _ | ⟨f, fs⟩
      · exact ⟨s, rfl⟩
      · obtain ⟨_, _, _, hc, -⟩ := hc
        rw [h] at hc
        cases hc
  have used : ∀ pre d post a, ds = pre ++ d :: post → Uses a d → ∃ e ∈ pre, Opens a e := by
    rintro pre d post a rfl ⟨t, hv, p, hp, rfl⟩
    obtain ⟨s1, s2, h1, h2⟩ : ∃ s1 s2, Tally.run o.bookingMethod o.tolerance 0 (Tally.init L) pre = some (s1, []) ∧
        s1.step o.bookingMethod o.tolerance (0 + pre.length) d = some (s2, []) :=
      tally_clean ht
    have hop : Tally.Opened ([] ++ pre) s1 := (Tally.Opened.init L).run pre h1
    rw [List.nil_append] at hop
    by_contra hne
    have hun : s1.standing p.acc = .unknown := by
      rw [hop.standing, hop.names]
      rintro ⟨e, he, op, ho, ha⟩
      exact hne ⟨e, he, op, ho, ha⟩
    unfold Tally.step at h2
    simp only [hv] at h2
    split at h2
    · cases h2
    · rename_i r hb
      split at h2
      · cases h2
      · rename_i hw
        have hlen := hL.book_length _ _ _ _ _ _ hb
        obtain ⟨i, hi, hip⟩ := List.getElem_of_mem hp
        have hz : (r.interpolated[i]'(by omega), p) ∈ r.interpolated.zip t.postings := by
          rw [List.mem_iff_getElem]
          exact ⟨i, by simp; omega, by simp [hip]⟩
        have := wrongPosting_none _ hw _ hz
        unfold Tally.usage Tally.account at this
        simp [hun] at this
  refine C39_unique _ _ _ (C39_completed ds) ?_
  clear h hc ht
  induction ds using List.reverseRecOn with
  | nil => exact .nil
  | append_singleton ds d ih =>
    have := Completed.snoc (g := []) (ih fun pre e post a h hu => used pre e (post ++ [d]) a (by rw [h]; simp) hu)
      (d := d) ⟨.nil, fun a => ⟨fun h => by simp at h, fun h => ?_⟩⟩
    · simpa using this
    · obtain ⟨e, he, ho⟩ := used ds d [] a rfl h.1
      exact absurd ho (h.2 e he).1

/-! ### Where it is false, and an example -/

namespace Ex

/-- Transactions, an assertion and a pad, and no account is opened. -/
def neverOpened : List Raw.Directive :=
  [ Toy.mkTxn 2 [(bank, ⟨5, 0⟩, nzd), (equity, ⟨-5, 0⟩, nzd)],
    Toy.mkBal 3 bank ⟨5, 0⟩ nzd,
    Toy.mkPad 4 bank equity,
    Toy.mkBal 5 bank ⟨7, 0⟩ nzd ]

/-- Without the plugin there are reports; with it the ledger is accepted. -/
example : (match book Toy.lib id {} neverOpened with | .failure es => es.length | _ => 0) = 4 ∧
    (match book Toy.lib id {} (autoAccounts .inPlace neverOpened) with | .success out _ => out.length | _ => 0) = 7 := by
  decide +kernel

/-- An assertion on an account which nothing else uses. -/
def onlyAsserted : List Raw.Directive := [Toy.mkBal 3 bank ⟨0, 0⟩ nzd]

/-- A pad from an account which nothing else uses. -/
def onlyPadded : List Raw.Directive :=
  [ Toy.mkTxn 2 [(bank, ⟨5, 0⟩, nzd), (food, ⟨-5, 0⟩, nzd)], Toy.mkPad 4 bank equity, Toy.mkBal 5 bank ⟨7, 0⟩ nzd ]

end Ex

/-- C79 is false of assertions and pads: with the plugin booking still reports an account which is not open, for an assertion on an account
which nothing else uses; and panics, for a pad from such an account. -/
theorem C79_false :
    book Toy.lib id {} (autoAccounts .inPlace Ex.onlyAsserted) =
      .failure [{ reason := .accountNotOpen, idx := { directive := 0 } }] ∧
    book Toy.lib id {} (autoAccounts .inPlace Ex.onlyPadded) = .panic := by
  decide +kernel

end Limabean
