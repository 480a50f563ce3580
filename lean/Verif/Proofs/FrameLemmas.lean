/-
What a directive looks at and what it changes, on the tally of `Spec.Faults`, up to renumbering.
-/
import Verif.Spec.Swap
import Verif.Spec.Parts
import Verif.Proofs.OutputLemmas

namespace Limabean

open Spec

variable {L : BookLib}

/-- How an account stands, with other numbers. -/
def Spec.Standing.renumber (f : Nat → Nat) : Standing → Standing
  | .unknown => .unknown
  | .opn k => .opn (f k)
  | .closed k => .closed (f k)
  | .reopened k j => .reopened (f k) (f j)

/-- The same is remembered of an account, up to numbers. -/
structure SameAt (f : Nat → Nat) (s s' : Tally L) (a : Str) : Prop where
  terms : s'.terms a = (s.terms a).map fun t => (f t.1, t.2)
  standing : s'.standing a = (s.standing a).renumber f
  held : s'.held a = s.held a
  pending : s'.pending a = (s.pending a).map fun t => (f t.1, t.2)
  names : a ∈ s'.names ↔ a ∈ s.names

theorem Spec.Standing.renumber_id (s : Standing) : s.renumber id = s := by cases s <;> rfl

theorem Spec.Standing.renumber_comp (f g : Nat → Nat) (s : Standing) : (s.renumber f).renumber g = s.renumber (g ∘ f) := by
  cases s <;> rfl

theorem SameAt.refl (s : Tally L) (a : Str) : SameAt id s s a :=
  ⟨by simp, by rw [Standing.renumber_id], rfl, by simp, Iff.rfl⟩

theorem SameAt.symm {s s' : Tally L} {a : Str} (h : SameAt id s s' a) : SameAt id s' s a :=
  ⟨by rw [h.terms]; simp, by rw [h.standing, Standing.renumber_id, Standing.renumber_id], h.held.symm,
    by rw [h.pending]; simp, h.names.symm⟩

theorem SameAt.trans {f g : Nat → Nat} {s s' s'' : Tally L} {a : Str} (h : SameAt f s s' a) (h' : SameAt g s' s'' a) :
    SameAt (g ∘ f) s s'' a :=
  ⟨by rw [h'.terms, h.terms]; simp [Function.comp_def], by rw [h'.standing, h.standing, Standing.renumber_comp],
    h'.held.trans h.held, by rw [h'.pending, h.pending]; simp [Function.comp_def], h'.names.trans h.names⟩

section
variable {f : Nat → Nat} {s s' : Tally L} {a : Str}

theorem SameAt.account (h : SameAt f s s' a) : s'.account a = (s.account a).map (Fault.renumber f) := by
  unfold Tally.account
  rw [h.standing]
  cases s.standing a <;> rfl

theorem SameAt.usage (h : SameAt f s s' a) (c : Str) : s'.usage a c = (s.usage a c).map (Fault.renumber f) := by
  unfold Tally.usage
  rw [h.account, h.terms]
  cases s.account a with
  | some x => cases s.terms a <;> rfl
  | none =>
    cases s.terms a with
    | none => rfl
    | some t =>
      simp only [Option.map_none, Option.map_some]
      split <;> rfl

theorem SameAt.method (h : SameAt f s s' a) (option : Option Booking) : s'.method option a = s.method option a := by
  unfold Tally.method
  rw [h.terms]
  cases s.terms a <;> rfl

theorem wrongPosting_renumber (i : Nat) (zs : List (Interpolated × Raw.PostingSpec))
    (h : ∀ z ∈ zs, SameAt f s s' z.2.acc) :
    s'.wrongPosting i zs = (s.wrongPosting i zs).map fun x => (x.1, x.2.renumber f) := by
  induction zs generalizing i with
  | nil => rfl
  | cons z zs ih =>
    obtain ⟨ip, p⟩ := z
    simp only [Tally.wrongPosting]
    rw [(h (ip, p) (by simp)).usage]
    cases s.usage p.acc ip.currency with
    | some x => rfl
    | none => exact ih (i + 1) fun z hz => h z (List.mem_cons_of_mem _ hz)

end

/-- Of a part of the state only the accounts in `W` are changed. -/
structure Changes (W : Str → Prop) (s t : Tally L) (k : List Str) : Prop where
  rest : ∀ a, ¬ W a → SameAt id s t a
  names : t.names = s.names ++ k
  new : ∀ a ∈ k, W a

theorem foldl_update_of_not {V : Type} (us : List (Str × V)) (h : Str → Option V) {a : Str} (ha : ∀ u ∈ us, u.1 ≠ a) :
    us.foldl (fun (h : Str → Option V) aq => Function.update h aq.1 (some aq.2)) h a = h a := by
  induction us generalizing h with
  | nil => rfl
  | cons u us ih =>
    simp only [List.foldl_cons]
    rw [ih _ fun v hv => ha v (List.mem_cons_of_mem _ hv), Function.update_of_ne (ha u (by simp)).symm]

theorem foldl_update_congr {V : Type} (us : List (Str × V)) {h h' : Str → Option V} {a : Str} (ha : h' a = h a) :
    us.foldl (fun (h : Str → Option V) aq => Function.update h aq.1 (some aq.2)) h' a =
    us.foldl (fun (h : Str → Option V) aq => Function.update h aq.1 (some aq.2)) h a := by
  induction us generalizing h h' with
  | nil => exact ha
  | cons u us ih =>
    simp only [List.foldl_cons]
    apply ih
    by_cases hu : a = u.1
    · subst hu; simp
    · simp [Function.update_of_ne hu, ha]

/-- The outcome of a directive in two states which are the same, up to numbers, where it looks. -/
inductive Framed (f : Nat → Nat) (W : Str → Prop) (s s' : Tally L) : Option (Tally L × List Finding) →
    Option (Tally L × List Finding) → Prop
  | crash : Framed f W s s' none none
  | fine {t t' fs k} : (∀ a, W a → SameAt f t t' a) → Changes W s t k → Changes W s' t' k →
      Framed f W s s' (some (t, fs)) (some (t', fs.map (Finding.renumber f)))

theorem Changes.same (W : Str → Prop) (s : Tally L) : Changes W s s [] :=
  ⟨fun _ _ => .refl _ _, by simp, by simp⟩

/-- Where it looks is where it changes something, and the accounts below that of an assertion. -/
structure Looked (f : Nat → Nat) (W : Str → Prop) (s s' : Tally L) (d : Raw.Directive) : Prop where
  same : ∀ a, W a → SameAt f s s' a
  uses : ∀ a ∈ accountsOf d, (∀ p, d.variant = .pad p → a = p.acc) → W a
  source : ∀ b k src, d.variant = .balance b → s.pending b.acc = some (k, src) → W src
  total : ∀ b, d.variant = .balance b → s'.total b.acc b.cur = s.total b.acc b.cur

theorem frame_step (hL : L.Lawful) (hlook : LooksAtItsAccounts L) {option : Option Booking} {tol : Tolerance}
    {f : Nat → Nat} {W : Str → Prop} {s s' : Tally L} {d : Raw.Directive} (h : Looked f W s s' d) (n : Nat) :
    Framed f W s s' (s.step option tol n d) (s'.step option tol (f n) d) := by
  have unch : ∀ g, Framed f W s s' (s.unchanged n g) (s'.unchanged (f n) (g.renumber f)) :=
    fun g => .fine h.same (.same _ _) (.same _ _)
  have uses := h.uses
  unfold Tally.step
  cases hv : d.variant with
  | opn o =>
    have hw : W o.acc := uses o.acc (by simp [accountsOf, hv]) (by simp [hv])
    have hs := h.same _ hw
    simp only [hs.standing]
    cases hst : s.standing o.acc with
    | unknown =>
      simp only [Standing.renumber]
      refine .fine (fs := []) (k := [o.acc]) ?_ ⟨?_, rfl, by simpa using hw⟩ ⟨?_, rfl, by simpa using hw⟩
      · intro a ha
        have h1 := h.same a ha
        by_cases hao : a = o.acc
        · subst hao
          exact ⟨by simp, by simp [Standing.renumber], by simp, h1.pending, by simp⟩
        · exact ⟨by simp [Function.update_of_ne hao, h1.terms], by simp [Function.update_of_ne hao, h1.standing],
            by simp [Function.update_of_ne hao, h1.held], h1.pending, by simp [h1.names, hao]⟩
      all_goals
        intro a ha
        have hao : a ≠ o.acc := fun hc => ha (hc ▸ hw)
        exact ⟨by simp [Function.update_of_ne hao], by simp [Function.update_of_ne hao, Standing.renumber_id],
            by simp [Function.update_of_ne hao], by simp, by simp [hao]⟩
    | opn k => exact unch (.alreadyOpen k)
    | reopened k j => exact unch (.alreadyOpen k)
    | closed k =>
      simp only [Standing.renumber]
      refine .fine (fs := [{ directive := n, fault := .closed k }]) (k := []) ?_ ⟨?_, by simp, by simp⟩ ⟨?_, by simp, by simp⟩
      · intro a ha
        have h1 := h.same a ha
        by_cases hao : a = o.acc
        · subst hao
          exact ⟨h1.terms, by simp [Standing.renumber], h1.held, h1.pending, h1.names⟩
        · exact ⟨h1.terms, by simp [Function.update_of_ne hao, h1.standing], h1.held, h1.pending, h1.names⟩
      all_goals
        intro a ha
        have hao : a ≠ o.acc := fun hc => ha (hc ▸ hw)
        exact ⟨by simp, by simp [Function.update_of_ne hao, Standing.renumber_id], rfl, by simp, Iff.rfl⟩
  | close c =>
    have hw : W c.acc := uses c.acc (by simp [accountsOf, hv]) (by simp [hv])
    have hs := h.same _ hw
    simp only [hs.standing]
    cases hst : s.standing c.acc with
    | unknown => exact unch .notOpen
    | closed k => exact unch .notOpen
    | reopened k j => exact unch (.alreadyClosed j)
    | opn k =>
      simp only [Standing.renumber]
      refine .fine (fs := []) (k := []) ?_ ⟨?_, by simp, by simp⟩ ⟨?_, by simp, by simp⟩
      · intro a ha
        have h1 := h.same a ha
        by_cases hao : a = c.acc
        · subst hao
          exact ⟨h1.terms, by simp [Standing.renumber], h1.held, h1.pending, h1.names⟩
        · exact ⟨h1.terms, by simp [Function.update_of_ne hao, h1.standing], h1.held, h1.pending, h1.names⟩
      all_goals
        intro a ha
        have hao : a ≠ c.acc := fun hc => ha (hc ▸ hw)
        exact ⟨by simp, by simp [Function.update_of_ne hao, Standing.renumber_id], rfl, by simp, Iff.rfl⟩
  | transaction t =>
    have hw : ∀ p ∈ t.postings, W p.acc := fun p hp =>
      uses p.acc (by simp only [accountsOf, hv, List.mem_map]; exact ⟨p, hp, rfl⟩) (by simp [hv])
    have hbk : L.book d.date t.postings tol s'.held (s'.method option) =
        L.book d.date t.postings tol s.held (s.method option) := by
      apply hlook
      intro p hp
      exact ⟨(h.same _ (hw p hp)).held, (h.same _ (hw p hp)).method option⟩
    simp only [hbk]
    cases hb : L.book d.date t.postings tol s.held (s.method option) with
    | error e => exact unch (.refused e)
    | ok q =>
      simp only
      rw [wrongPosting_renumber (f := f) (s := s) (s' := s') 0 _ (by
        intro z hz
        exact h.same _ (hw _ (List.of_mem_zip hz).2))]
      cases s.wrongPosting 0 (q.interpolated.zip t.postings) with
      | some x =>
        obtain ⟨i, g⟩ := x
        exact .fine (fs := [{ directive := n, posting := some i, fault := g }]) h.same (.same _ _) (.same _ _)
      | none =>
        simp only [Option.map_none]
        have hup : ∀ u ∈ q.updated, W u.1 := by
          intro u hu
          obtain ⟨p, hp, hpa⟩ := hL.book_accounts _ _ _ _ _ _ hb u.1 u.2 hu
          exact hpa ▸ hw p hp
        refine .fine (fs := []) (k := []) ?_ ⟨?_, by simp, by simp⟩ ⟨?_, by simp, by simp⟩
        · intro a ha
          have h1 := h.same a ha
          exact ⟨h1.terms, h1.standing, foldl_update_congr _ h1.held, h1.pending, h1.names⟩
        all_goals
          intro a ha
          refine ⟨by simp, by rw [Standing.renumber_id], foldl_update_of_not _ _ ?_, by simp, Iff.rfl⟩
          intro u hu hc
          exact ha (hc ▸ hup u hu)
  | pad p =>
    have hw : W p.acc := uses p.acc (by simp [accountsOf, hv]) (by intro q hq; rw [hv] at hq; cases hq; rfl)
    have hs := h.same _ hw
    simp only [hs.account, hs.pending]
    have upd : ∀ (q : Option (Nat × Str)) (g : List Finding), Framed f W s s'
        (some ({ s with pending := Function.update s.pending p.acc q }, g))
        (some ({ s' with pending := Function.update s'.pending p.acc (q.map fun t => (f t.1, t.2)) },
          g.map (Finding.renumber f))) := by
      intro q g
      refine .fine (k := []) ?_ ⟨?_, by simp, by simp⟩ ⟨?_, by simp, by simp⟩
      · intro a ha
        have h1 := h.same a ha
        refine ⟨h1.terms, h1.standing, h1.held, ?_, h1.names⟩
        by_cases hao : a = p.acc
        · subst hao; simp
        · simp [Function.update_of_ne hao, h1.pending]
      all_goals
        intro a ha
        have hao : a ≠ p.acc := fun hc => ha (hc ▸ hw)
        exact ⟨by simp, by rw [Standing.renumber_id], rfl, by simp [Function.update_of_ne hao], Iff.rfl⟩
    cases s.account p.acc with
    | some g => exact unch g
    | none =>
      cases s.pending p.acc with
      | some q => exact upd none [{ directive := q.1, fault := .padSuperseded n }]
      | none => exact upd (some (n, p.source)) []
  | balance b =>
    have hw : W b.acc := uses b.acc (by simp [accountsOf, hv]) (by simp [hv])
    have hs := h.same _ hw
    have hsrc := h.source b
    simp only [hs.usage, hs.pending, h.total b hv]
    cases s.usage b.acc b.cur with
    | some g => exact unch g
    | none =>
      simp only [Option.map_none]
      generalize b.units.sub (s.total b.acc b.cur) = gap
      have hset : ∀ (s1 s1' : Tally L) (c : Str) (m : Dec), W c → (∀ a, W a → SameAt f s1 s1' a) →
          Changes W s s1 [] → Changes W s' s1' [] →
          (∀ a, W a → SameAt f (s1.change c m b.cur) (s1'.change c m b.cur) a) ∧
          Changes W s (s1.change c m b.cur) [] ∧ Changes W s' (s1'.change c m b.cur) [] := by
        intro s1 s1' c m hc h1 h2 h3
        refine ⟨?_, ⟨?_, h2.names, h2.new⟩, ⟨?_, h3.names, h3.new⟩⟩
        · intro a ha
          have k := h1 a ha
          refine ⟨k.terms, k.standing, ?_, k.pending, k.names⟩
          unfold Tally.change
          by_cases hac : a = c
          · subst hac; simp [k.held]
          · simp [Function.update_of_ne hac, k.held]
        · intro a ha
          have k := h2.rest a ha
          have hac : a ≠ c := fun e => ha (e ▸ hc)
          exact ⟨k.terms, k.standing, by simp [Tally.change, Function.update_of_ne hac, k.held], k.pending, k.names⟩
        · intro a ha
          have k := h3.rest a ha
          have hac : a ≠ c := fun e => ha (e ▸ hc)
          exact ⟨k.terms, k.standing, by simp [Tally.change, Function.update_of_ne hac, k.held], k.pending, k.names⟩
      have hdrop : (∀ a, W a → SameAt f { s with pending := Function.update s.pending b.acc none }
            { s' with pending := Function.update s'.pending b.acc none } a) ∧
          Changes W s { s with pending := Function.update s.pending b.acc none } [] ∧
          Changes W s' { s' with pending := Function.update s'.pending b.acc none } [] := by
        refine ⟨?_, ⟨?_, by simp, by simp⟩, ⟨?_, by simp, by simp⟩⟩
        · intro a ha
          have h1 := h.same a ha
          refine ⟨h1.terms, h1.standing, h1.held, ?_, h1.names⟩
          by_cases hao : a = b.acc
          · subst hao; simp
          · simp [Function.update_of_ne hao, h1.pending]
        all_goals
          intro a ha
          have hao : a ≠ b.acc := fun hc => ha (hc ▸ hw)
          exact ⟨by simp, by rw [Standing.renumber_id], rfl, by simp [Function.update_of_ne hao], Iff.rfl⟩
      cases gap.abs.gt (toleranceDec tol.multiplier b) with
      | false =>
        cases hp : s.pending b.acc with
        | none => exact .fine (fs := []) h.same (.same _ _) (.same _ _)
        | some q =>
          exact .fine (fs := [{ directive := q.1, fault := .padUnneeded }]) hdrop.1 hdrop.2.1 hdrop.2.2
      | true =>
        cases hp : s.pending b.acc with
        | none =>
          have := hset s s' b.acc gap hw h.same (.same _ _) (.same _ _)
          exact .fine (fs := [{ directive := n, fault := .gap gap b.cur }]) this.1 this.2.1 this.2.2
        | some q =>
          obtain ⟨k, src⟩ := q
          have hws := hsrc k src hv hp
          have hn := (h.same _ hws).names
          simp only [Option.map_some]
          by_cases hm : src ∈ s.names
          · rw [if_pos hm, if_pos (hn.2 hm)]
            have h1 := hset _ _ b.acc gap hw hdrop.1 hdrop.2.1 hdrop.2.2
            have h2 := hset _ _ src gap.neg hws h1.1 h1.2.1 h1.2.2
            exact .fine (fs := []) h2.1 h2.2.1 h2.2.2
          · rw [if_neg hm, if_neg (fun hc => hm (hn.1 hc))]
            exact .crash
  | _ => exact .fine (fs := []) h.same (.same _ _) (.same _ _)

/-- What is returned for the directive is the same as well. -/
theorem frame_emits (hlook : LooksAtItsAccounts L) {option : Option Booking} {tol : Tolerance}
    {f : Nat → Nat} {W : Str → Prop} {s s' : Tally L} {d : Raw.Directive} (h : Looked f W s s' d) (n : Nat) :
    s'.emits option tol (f n) d = (s.emits option tol n d).map (renumbered f) := by
  have : s'.variants option tol d = s.variants option tol d := by
    unfold Tally.variants
    cases hv : d.variant with
    | transaction t =>
      have hw : ∀ p ∈ t.postings, W p.acc := fun p hp =>
        h.uses p.acc (by simp only [accountsOf, hv, List.mem_map]; exact ⟨p, hp, rfl⟩) (by simp [hv])
      have hbk : L.book d.date t.postings tol s'.held (s'.method option) =
          L.book d.date t.postings tol s.held (s.method option) := by
        apply hlook
        intro p hp
        exact ⟨(h.same _ (hw p hp)).held, (h.same _ (hw p hp)).method option⟩
      simp only [hbk]
    | _ => rfl
  unfold Tally.emits
  rw [this, List.map_map]
  rfl

theorem frame_fills {tol : Tolerance} {f : Nat → Nat} {W : Str → Prop} {s s' : Tally L} {d : Raw.Directive}
    (h : Looked f W s s' d) : s'.fills tol d = (s.fills tol d).map fun x => (f x.1, x.2) := by
  unfold Tally.fills
  cases hv : d.variant with
  | balance b =>
    have hw : W b.acc := h.uses b.acc (by simp [accountsOf, hv]) (by simp [hv])
    simp only [(h.same _ hw).pending, h.total b hv]
    generalize b.units.sub (s.total b.acc b.cur) = gap
    cases gap.abs.gt (toleranceDec tol.multiplier b) <;> cases s.pending b.acc <;> rfl
  | _ => rfl

end Limabean
