/-
Booking a ledger without directives which have no effect goes through the same states, but for pads which have been taken out.
-/
import Verif.Proofs.SwapLemmas
import Verif.Spec.TakenOut

namespace Limabean

open Spec

variable {L : BookLib} {option : Option Booking} {tol : Tolerance}

/-- Without the pads which have been taken out. -/
def bare (taken : Nat → Bool) (s : Tally L) : Tally L :=
  { s with pending := fun a => (s.pending a).filter fun p => !taken p.1 }

/-- The same is remembered, up to numbers, but for pads which have been taken out. -/
structure Thin (taken : Nat → Bool) (s t : Tally L) : Prop where
  same : ∀ a, SameAt (numberIn taken) (bare taken s) t a
  names : t.names = s.names

theorem step_fault_class {s s' : Tally L} {n : Nat} {d : Raw.Directive} {fs : List Finding} (h : s.step option tol n d = some (s', fs))
    {g : Finding} (hg : g ∈ fs) :
    (g.directive = n ∧ s'.pending = s.pending ∧ fs = [g] ∧ (g.fault.idle d → s' = s)) ∨
    ∃ a src, s.pending a = some (g.directive, src) ∧ s'.pending = Function.update s.pending a none ∧ fs = [g] ∧
      (g.fault = .padUnneeded ∨ g.fault = .padSuperseded n) := by
  have no : ∀ {x : Fault}, s.unchanged n x = some (s', fs) →
      (g.directive = n ∧ s'.pending = s.pending ∧ fs = [g] ∧ (g.fault.idle d → s' = s)) := by
    intro x hx
    unfold Tally.unchanged at hx
    cases hx
    rw [List.mem_singleton] at hg
    subst hg
    exact ⟨rfl, rfl, rfl, fun _ => rfl⟩
  unfold Tally.step at h
  split at h
  · rename_i o hv
    split at h
    · cases h; cases hg
    · exact .inl (no h)
    · exact .inl (no h)
    · cases h
      rw [List.mem_singleton] at hg
      subst hg
      refine .inl ⟨rfl, rfl, rfl, fun hi => ?_⟩
      simp [Fault.idle, opens, hv] at hi
  · split at h
    · cases h; cases hg
    · exact .inl (no h)
    · exact .inl (no h)
    · exact .inl (no h)
  · split at h
    · exact .inl (no h)
    · split at h
      · cases h
        rw [List.mem_singleton] at hg
        subst hg
        exact .inl ⟨rfl, rfl, rfl, fun _ => rfl⟩
      · cases h; cases hg
  · split at h
    · exact .inl (no h)
    · simp only at h
      split at h
      · cases h; cases hg
      · rename_i k src h2 h3
        cases h
        rw [List.mem_singleton] at hg
        subst hg
        exact .inr ⟨_, _, h3, rfl, rfl, .inl rfl⟩
      · cases h
        rw [List.mem_singleton] at hg
        subst hg
        exact .inl ⟨rfl, rfl, rfl, fun hi => hi.elim⟩
      · split at h
        · cases h; cases hg
        · cases h
  · split at h
    · exact .inl (no h)
    · rename_i h2 h3
      cases h
      rw [List.mem_singleton] at hg
      subst hg
      exact .inr ⟨_, _, h3, rfl, rfl, .inr rfl⟩
    · cases h; cases hg
  · cases h; cases hg

/-- Which pads are pending after a directive. -/
theorem step_pending {s s' : Tally L} {n : Nat} {d : Raw.Directive} {fs : List Finding} (h : s.step option tol n d = some (s', fs))
    {a : Str} {k : Nat} {src : Str} (hp : s'.pending a = some (k, src)) :
    s.pending a = some (k, src) ∨
    (k = n ∧ fs = [] ∧ s.pending a = none ∧ s' = { s with pending := Function.update s.pending a (some (n, src)) }) := by
  have no : ∀ {x : Fault}, s.unchanged n x = some (s', fs) → s.pending a = some (k, src) := by
    intro x hx
    unfold Tally.unchanged at hx
    cases hx
    exact hp
  have upd : ∀ {x : Str}, Function.update s.pending x none a = some (k, src) → s.pending a = some (k, src) := by
    intro x hx
    by_cases hax : a = x
    · subst hax; simp at hx
    · rwa [Function.update_of_ne hax] at hx
  unfold Tally.step at h
  split at h
  · split at h
    · cases h; exact .inl hp
    · exact .inl (no h)
    · exact .inl (no h)
    · cases h; exact .inl hp
  · split at h
    · cases h; exact .inl hp
    · exact .inl (no h)
    · exact .inl (no h)
    · exact .inl (no h)
  · split at h
    · exact .inl (no h)
    · split at h
      · cases h; exact .inl hp
      · cases h; exact .inl hp
  · split at h
    · exact .inl (no h)
    · simp only at h
      split at h
      · cases h; exact .inl hp
      · cases h; exact .inl (upd hp)
      · cases h; exact .inl hp
      · split at h
        · cases h; exact .inl (upd hp)
        · cases h
  · rename_i p hv
    split at h
    · exact .inl (no h)
    · cases h; exact .inl (upd hp)
    · rename_i h2 h3
      cases h
      by_cases hax : a = p.acc
      · subst hax
        simp only [Function.update_self, Option.some.injEq, Prod.mk.injEq] at hp
        obtain ⟨rfl, rfl⟩ := hp
        exact .inr ⟨rfl, rfl, h3, rfl⟩
      · simp only [Function.update_of_ne hax] at hp
        exact .inl hp
  · cases h; exact .inl hp

/-- Findings are at later directives, or at pads which are pending. -/
theorem run_place (ds : List Raw.Directive) {s s' : Tally L} {n : Nat} {fs : List Finding}
    (h : Tally.run option tol n s ds = some (s', fs)) {g : Finding} (hg : g ∈ fs ++ s'.unbalanced) :
    n ≤ g.directive ∨ ∃ a src, s.pending a = some (g.directive, src) := by
  induction ds generalizing n s fs with
  | nil =>
    cases h
    right
    simp only [List.nil_append, Tally.unbalanced, List.mem_filterMap, Option.map_eq_some_iff] at hg
    obtain ⟨a, -, ⟨k, src⟩, h1, rfl⟩ := hg
    exact ⟨a, src, h1⟩
  | cons d ds ih =>
    simp only [Tally.run] at h
    split at h
    · cases h
    rename_i s1 f1 h1
    split at h
    · cases h
    rename_i s2 f2 h2
    cases h
    rw [List.append_assoc] at hg
    rcases List.mem_append.1 hg with hg | hg
    · rcases step_fault_class h1 hg with ⟨h3, -⟩ | ⟨a, src, h3, -⟩
      · exact .inl h3.ge
      · exact .inr ⟨a, src, h3⟩
    · rcases ih h2 hg with h3 | ⟨a, src, h3⟩
      · exact .inl (by omega)
      · rcases step_pending h1 h3 with h4 | ⟨h4, -⟩
        · exact .inr ⟨a, src, h4⟩
        · exact .inl h4.ge

theorem step_names {s s' : Tally L} {n : Nat} {d : Raw.Directive} {fs : List Finding} (h : s.step option tol n d = some (s', fs)) :
    s'.names = s.names ∨ ∃ a, s.standing a = .unknown ∧ s'.names = s.names ++ [a] := by
  unfold Tally.step Tally.unchanged at h
  split at h
  · split at h
    · rename_i h1
      cases h
      exact .inr ⟨_, h1, rfl⟩
    all_goals cases h; exact .inl rfl
  · split at h <;> cases h <;> exact .inl rfl
  · split at h
    · cases h; exact .inl rfl
    · split at h <;> cases h <;> exact .inl rfl
  · split at h
    · cases h; exact .inl rfl
    · simp only at h
      split at h
      · cases h; exact .inl rfl
      · cases h; exact .inl rfl
      · cases h; exact .inl rfl
      · split at h
        · cases h; exact .inl rfl
        · cases h
  · split at h <;> cases h <;> exact .inl rfl
  · cases h; exact .inl rfl

theorem Tally.Opened.pending_lt {pre : List Raw.Directive} {s : Tally L} (hop : Tally.Opened pre s) {a : Str} {k : Nat} {src : Str}
    (hp : s.pending a = some (k, src)) : k < pre.length := by
  obtain ⟨x, p, h3, -⟩ := hop.pending _ _ _ hp
  exact (List.getElem?_eq_some_iff.1 h3).1

theorem Tally.Opened.pending_unique {pre : List Raw.Directive} {s : Tally L} (hop : Tally.Opened pre s) {a a' : Str} {k : Nat}
    {src src' : Str} (hp : s.pending a = some (k, src)) (hp' : s.pending a' = some (k, src')) : a = a' := by
  obtain ⟨x, p, h3, h4, h5, -⟩ := hop.pending _ _ _ hp
  obtain ⟨x', p', h3', h4', h5', -⟩ := hop.pending _ _ _ hp'
  rw [h3] at h3'
  cases h3'
  rw [h4] at h4'
  cases h4'
  rw [← h5, h5']

/-- At no directive there are two findings. -/
theorem run_once (ds : List Raw.Directive) {pre : List Raw.Directive} {s s' : Tally L} {fs : List Finding} (hop : Tally.Opened pre s)
    (hn : s.names.Nodup) (h : Tally.run option tol pre.length s ds = some (s', fs)) :
    ((fs ++ s'.unbalanced).map fun g => g.directive).Nodup := by
  induction ds generalizing pre s fs with
  | nil =>
    cases h
    rw [List.nil_append, Tally.unbalanced, List.map_filterMap]
    rw [List.nodup_iff_pairwise_ne, List.pairwise_filterMap]
    refine hn.imp fun {a b} hab x hx y hy hxy => ?_
    simp only [Option.map_map, Option.map_eq_some_iff, Function.comp_apply] at hx hy
    obtain ⟨⟨k, src⟩, h1, h2⟩ := hx
    obtain ⟨⟨k', src'⟩, h1', h2'⟩ := hy
    simp only at h2 h2'
    subst h2 h2' hxy
    exact hab (hop.pending_unique h1 h1')
  | cons d ds ih =>
    simp only [Tally.run] at h
    split at h
    · cases h
    rename_i s1 f1 h1
    split at h
    · cases h
    rename_i s2 f2 h2
    cases h
    have hop' : Tally.Opened (pre ++ [d]) s1 := hop.step h1
    have hlen : (pre ++ [d]).length = pre.length + 1 := by simp
    have hn' : s1.names.Nodup := by
      rcases step_names h1 with h3 | ⟨a, h3, h4⟩
      · rw [h3]; exact hn
      · rw [h4]
        have := (hop.standing a).1 h3
        exact List.nodup_append.2 ⟨hn, by simp, by
          intro x hx y hy hxy
          rw [List.mem_singleton] at hy
          exact this (hy ▸ hxy ▸ hx)⟩
    have hrest := ih hop' hn' (by rw [hlen]; exact h2)
    rw [List.append_assoc, List.map_append]
    cases f1 with
    | nil => exact hrest
    | cons g f1 =>
      have hc := step_fault_class h1 (g := g) (by simp)
      have hsing : f1 = [] := by
        rcases hc with ⟨-, -, h3, -⟩ | ⟨-, -, -, -, h3, -⟩ <;> simpa using h3
      subst hsing
      simp only [List.map_cons, List.map_nil, List.cons_append, List.nil_append]
      refine List.nodup_cons.2 ⟨?_, hrest⟩
      intro hmem
      obtain ⟨g', hg', hgg⟩ := List.mem_map.1 hmem
      rcases run_place ds h2 hg' with h3 | ⟨a, src, h3⟩
      · rw [hgg] at h3
        rcases hc with ⟨h4, -⟩ | ⟨a, src, h4, -⟩
        · omega
        · have := hop.pending_lt h4
          omega
      · rw [hgg] at h3
        rcases hc with ⟨h4, h5, -⟩ | ⟨a', src', h4, h5, -⟩
        · rw [h5] at h3
          have := hop.pending_lt h3
          omega
        · rw [h5] at h3
          by_cases haa : a = a'
          · subst haa; simp at h3
          · rw [Function.update_of_ne haa] at h3
            exact haa (hop.pending_unique h3 h4)

/-- Findings at directives which are left. -/
def findingsLeft (taken : Nat → Bool) (fs : List Finding) : List Finding := fs.filter fun g => !taken g.directive

section
variable {taken : Nat → Bool} {s t : Tally L}

theorem Thin.held (h : Thin taken s t) : t.held = s.held := funext fun a => (h.same a).held

theorem Thin.total (h : Thin taken s t) (acc cur : Str) : t.total acc cur = s.total acc cur := by
  unfold Tally.total
  rw [h.names, h.held]

theorem Thin.account (h : Thin taken s t) (a : Str) : t.account a = (s.account a).map (Fault.renumber (numberIn taken)) := (h.same a).account

theorem Thin.usage (h : Thin taken s t) (a c : Str) : t.usage a c = (s.usage a c).map (Fault.renumber (numberIn taken)) := (h.same a).usage c

theorem Thin.method (h : Thin taken s t) : t.method option = s.method option := funext fun a => (h.same a).method option

theorem Thin.wrongPosting (h : Thin taken s t) (i : Nat) (zs : List (Interpolated × Raw.PostingSpec)) :
    t.wrongPosting i zs = (s.wrongPosting i zs).map fun x => (x.1, x.2.renumber (numberIn taken)) := by
  have h1 := wrongPosting_renumber (s := bare taken s) (s' := t) i zs fun z _ => h.same _
  have h2 : ∀ j zs, (bare taken s).wrongPosting j zs = s.wrongPosting j zs := by
    intro j zs
    induction zs generalizing j with
    | nil => rfl
    | cons z zs ih =>
      obtain ⟨ip, p⟩ := z
      simp only [Tally.wrongPosting, ih]
      rfl
  rw [h1, h2]

theorem Thin.standing (h : Thin taken s t) (a : Str) : t.standing a = (s.standing a).renumber (numberIn taken) := (h.same a).standing

theorem Thin.pending (h : Thin taken s t) (a : Str) :
    t.pending a = ((s.pending a).filter fun p => !taken p.1).map fun p => (numberIn taken p.1, p.2) := (h.same a).pending

theorem left_single {g : Finding} (h : taken g.directive = false) : findingsLeft taken [g] = [g] := by
  simp [findingsLeft, h]

theorem Thin.clear (h : Thin taken s t) (x : Str) : Thin taken { s with pending := Function.update s.pending x none }
    { t with pending := Function.update t.pending x none } := by
  refine ⟨fun a => ⟨(h.same a).terms, (h.same a).standing, (h.same a).held, ?_, (h.same a).names⟩, h.names⟩
  by_cases ha : a = x
  · subst ha; simp [bare]
  · simp only [bare, Function.update_of_ne ha]
    exact h.pending a

theorem Thin.change (h : Thin taken s t) (x : Str) (u : Dec) (c : Str) : Thin taken (s.change x u c) (t.change x u c) := by
  refine ⟨fun a => ⟨(h.same a).terms, (h.same a).standing, ?_, (h.same a).pending, (h.same a).names⟩, h.names⟩
  simp only [Tally.change, bare, h.held]

theorem Thin.step (h : Thin taken s t) {n : Nat} {d : Raw.Directive} {s' : Tally L} {fs : List Finding} (hn : taken n = false)
    (hs : s.step option tol n d = some (s', fs))
    (hfill : ∀ b k src, d.variant = .balance b → s.pending b.acc = some (k, src) → taken k = true → s.usage b.acc b.cur = none →
      (b.units.sub (s.total b.acc b.cur)).abs.gt (toleranceDec tol.multiplier b) = false)
    (hpad : ∀ p k src, d.variant = .pad p → s.account p.acc = none → s.pending p.acc = some (k, src) → taken k = false) :
    ∃ t', t.step option tol (numberIn taken n) d = some (t', (findingsLeft taken fs).map (Finding.renumber (numberIn taken))) ∧
      Thin taken s' t' := by
  have no : ∀ {x : Fault}, s.unchanged n x = some (s', fs) →
      ∃ t', t.unchanged (numberIn taken n) (x.renumber (numberIn taken)) =
        some (t', (findingsLeft taken fs).map (Finding.renumber (numberIn taken))) ∧ Thin taken s' t' := by
    intro x hx
    unfold Tally.unchanged at hx ⊢
    cases hx
    exact ⟨t, by rw [left_single (by exact hn)]; rfl, h⟩
  unfold Tally.step at hs
  split at hs
  · rename_i o hv
    have hst := h.standing o.acc
    split at hs
    · rename_i h1
      cases hs
      rw [h1] at hst
      refine ⟨{ t with
        names := t.names ++ [o.acc]
        terms := Function.update t.terms o.acc (some (numberIn taken n, o))
        standing := Function.update t.standing o.acc (.opn (numberIn taken n))
        held := Function.update t.held o.acc (some L.empty) }, ?_, ?_, by simp [h.names]⟩
      · simp only [Tally.step, hv, hst, Standing.renumber]
        rfl
      · intro a
        refine ⟨?_, ?_, ?_, (h.same a).pending, by simp [bare, h.names]⟩
        · by_cases ha : a = o.acc
          · subst ha; simp [bare]
          · simpa [bare, Function.update_of_ne ha] using (h.same a).terms
        · by_cases ha : a = o.acc
          · subst ha; simp [bare, Standing.renumber]
          · simpa [bare, Function.update_of_ne ha] using (h.same a).standing
        · simp only [bare, h.held]
    · rename_i k h1
      rw [h1] at hst
      simp only [Tally.step, hv, hst, Standing.renumber]
      exact no hs
    · rename_i k j h1
      rw [h1] at hst
      simp only [Tally.step, hv, hst, Standing.renumber]
      exact no hs
    · rename_i k h1
      cases hs
      rw [h1] at hst
      refine ⟨{ t with standing := Function.update t.standing o.acc (.reopened (numberIn taken n) (numberIn taken k)) }, ?_, ?_, h.names⟩
      · simp only [Tally.step, hv, hst, Standing.renumber]
        rw [left_single (by exact hn)]
        rfl
      · intro a
        refine ⟨(h.same a).terms, ?_, (h.same a).held, (h.same a).pending, (h.same a).names⟩
        by_cases ha : a = o.acc
        · subst ha; simp [bare, Standing.renumber]
        · simpa [bare, Function.update_of_ne ha] using (h.same a).standing
  · rename_i c hv
    have hst := h.standing c.acc
    split at hs
    · rename_i k h1
      cases hs
      rw [h1] at hst
      refine ⟨{ t with standing := Function.update t.standing c.acc (.closed (numberIn taken n)) }, ?_, ?_, h.names⟩
      · simp only [Tally.step, hv, hst, Standing.renumber]
        rfl
      · intro a
        refine ⟨(h.same a).terms, ?_, (h.same a).held, (h.same a).pending, (h.same a).names⟩
        by_cases ha : a = c.acc
        · subst ha; simp [bare, Standing.renumber]
        · simpa [bare, Function.update_of_ne ha] using (h.same a).standing
    · rename_i k j h1
      rw [h1] at hst
      simp only [Tally.step, hv, hst, Standing.renumber]
      exact no hs
    · rename_i h1
      rw [h1] at hst
      simp only [Tally.step, hv, hst, Standing.renumber]
      exact no hs
    · rename_i k h1
      rw [h1] at hst
      simp only [Tally.step, hv, hst, Standing.renumber]
      exact no hs
  · rename_i tr hv
    split at hs
    · rename_i e h1
      rw [← h.held, ← h.method] at h1
      simp only [Tally.step, hv, h1]
      exact no hs
    · rename_i r h1
      rw [← h.held, ← h.method] at h1
      split at hs
      · rename_i i x h2
        cases hs
        simp only [Tally.step, hv, h1, h.wrongPosting, h2, Option.map_some]
        exact ⟨t, by rw [left_single (by exact hn)]; rfl, h⟩
      · rename_i h2
        cases hs
        simp only [Tally.step, hv, h1, h.wrongPosting, h2, Option.map_none]
        refine ⟨_, rfl, ?_, h.names⟩
        intro a
        refine ⟨(h.same a).terms, (h.same a).standing, ?_, (h.same a).pending, (h.same a).names⟩
        simp only [bare, h.held]
  · rename_i b hv
    split at hs
    · rename_i x h1
      simp only [Tally.step, hv, h.usage, h1, Option.map_some]
      exact no hs
    · rename_i h1
      simp only at hs
      simp only [Tally.step, hv, h.usage, h1, Option.map_none, h.total]
      have hp := h.pending b.acc
      split at hs
      · rename_i h2 h3
        cases hs
        rw [h3] at hp
        simp only [h2, hp, Option.filter_none, Option.map_none]
        exact ⟨t, rfl, h⟩
      · rename_i k src h2 h3
        cases hs
        rw [h3] at hp
        cases hk : taken k with
        | true =>
          simp only [h2, hp, Option.filter_some, hk, Bool.not_true, Bool.false_eq_true, if_false, Option.map_none]
          refine ⟨t, by simp [findingsLeft, hk], ?_⟩
          refine ⟨fun a => ⟨(h.same a).terms, (h.same a).standing, (h.same a).held, ?_, (h.same a).names⟩, h.names⟩
          by_cases ha : a = b.acc
          · subst ha; simp [bare, hp, hk, Option.filter_some]
          · simpa [bare, Function.update_of_ne ha] using h.pending a
        | false =>
          simp only [h2, hp, Option.filter_some, hk, Bool.not_false, if_true, Option.map_some]
          exact ⟨_, by rw [left_single (by exact hk)]; rfl, h.clear _⟩
      · rename_i h2 h3
        cases hs
        rw [h3] at hp
        simp only [h2, hp, Option.filter_none, Option.map_none]
        exact ⟨_, by rw [left_single (by exact hn)]; rfl, h.change _ _ _⟩
      · rename_i k src h2 h3
        split at hs
        · rename_i h4
          cases hs
          rw [h3] at hp
          have hk : taken k = false := by
            cases hk : taken k with
            | false => rfl
            | true => rw [hfill b k src hv h3 hk h1] at h2; cases h2
          have h5 : src ∈ t.names := by rw [h.names]; exact h4
          simp only [h2, hp, Option.filter_some, hk, Bool.not_false, if_true, Option.map_some, h5]
          exact ⟨_, rfl, ((h.clear _).change _ _ _).change _ _ _⟩
        · cases hs
  · rename_i p hv
    have hp := h.pending p.acc
    split at hs
    · rename_i x h1
      simp only [Tally.step, hv, h.account, h1, Option.map_some]
      exact no hs
    · rename_i k src h1 h3
      cases hs
      rw [h3] at hp
      have hk := hpad p k src hv h1 h3
      simp only [Tally.step, hv, h.account, h1, Option.map_none, hp, Option.filter_some, hk, Bool.not_false, if_true, Option.map_some]
      exact ⟨_, by rw [left_single (by exact hk)]; rfl, h.clear _⟩
    · rename_i h1 h3
      cases hs
      rw [h3] at hp
      simp only [Tally.step, hv, h.account, h1, Option.map_none, hp, Option.filter_none]
      refine ⟨_, rfl, ?_, h.names⟩
      intro a
      refine ⟨(h.same a).terms, (h.same a).standing, (h.same a).held, ?_, (h.same a).names⟩
      by_cases ha : a = p.acc
      · subst ha; simp [bare, hn, Option.filter_some]
      · simpa [bare, Function.update_of_ne ha] using h.pending a
  · rename_i hnone h2 h3 h4 h5
    cases hs
    refine ⟨t, ?_, h⟩
    unfold Tally.step
    split <;> simp_all [findingsLeft]

theorem Thin.skip (h : Thin taken s t) {n : Nat} (hn : taken n = true) {a : Str} (ha : s.pending a = none) (src : Str) :
    Thin taken { s with pending := Function.update s.pending a (some (n, src)) } t := by
  refine ⟨fun x => ⟨(h.same x).terms, (h.same x).standing, (h.same x).held, ?_, (h.same x).names⟩, h.names⟩
  by_cases hx : x = a
  · subst hx
    have := h.pending x
    rw [ha] at this
    simp [bare, hn, Option.filter_some, this]
  · simpa [bare, Function.update_of_ne hx] using h.pending x

theorem Thin.unbalanced (h : Thin taken s t) :
    t.unbalanced = (findingsLeft taken s.unbalanced).map (Finding.renumber (numberIn taken)) := by
  unfold Tally.unbalanced findingsLeft
  rw [h.names, List.filter_filterMap, List.map_filterMap]
  apply List.filterMap_congr
  intro a _
  rw [h.pending]
  cases s.pending a with
  | none => rfl
  | some p =>
    cases hk : taken p.1 <;> simp [hk, Option.filter_some, Finding.renumber, Fault.renumber]

theorem Thin.run (ds : List Raw.Directive) {pre : List Raw.Directive} {s t s' : Tally L} {fs : List Finding} (hop : Tally.Opened pre s)
    (h : Thin taken s t) (hs : Tally.run option tol pre.length s ds = some (s', fs))
    (hex : ∀ k, taken k = true → (pre.length ≤ k ∨ ∃ a src, s.pending a = some (k, src)) → ∃ g ∈ fs ++ s'.unbalanced, g.directive = k)
    (hidle : ∀ g ∈ fs ++ s'.unbalanced, taken g.directive = true → ∃ d, (pre ++ ds)[g.directive]? = some d ∧ g.fault.idle d) :
    ∃ t', Tally.run option tol (numberIn taken pre.length) t (withoutFrom taken pre.length ds) =
        some (t', (findingsLeft taken fs).map (Finding.renumber (numberIn taken))) ∧ Thin taken s' t' := by
  induction ds generalizing pre s t fs with
  | nil =>
    cases hs
    exact ⟨t, rfl, h⟩
  | cons d ds ih =>
    simp only [Tally.run] at hs
    split at hs
    · cases hs
    rename_i s1 f1 h1
    split at hs
    · cases hs
    rename_i s2 f2 h2
    cases hs
    have hop' : Tally.Opened (pre ++ [d]) s1 := hop.step h1
    have hlen : (pre ++ [d]).length = pre.length + 1 := by simp
    have hlt : ∀ {a k src}, s.pending a = some (k, src) → k < pre.length := by
      intro a k src hp
      obtain ⟨x, p, h3, -⟩ := hop.pending _ _ _ hp
      exact (List.getElem?_eq_some_iff.1 h3).1
    have huniq : ∀ {a a' k src src'}, s.pending a = some (k, src) → s.pending a' = some (k, src') → a = a' := by
      intro a a' k src src' hp hp'
      obtain ⟨x, p, h3, h4, h5, -⟩ := hop.pending _ _ _ hp
      obtain ⟨x', p', h3', h4', h5', -⟩ := hop.pending _ _ _ hp'
      rw [h3] at h3'
      cases h3'
      rw [h4] at h4'
      cases h4'
      rw [← h5, h5']
    have hex' : ∀ k, taken k = true → ((pre ++ [d]).length ≤ k ∨ ∃ a src, s1.pending a = some (k, src)) →
        ∃ g ∈ f2 ++ s'.unbalanced, g.directive = k := by
      intro k hk hor
      rw [hlen] at hor
      have hor' : pre.length ≤ k ∨ ∃ a src, s.pending a = some (k, src) := by
        rcases hor with hle | ⟨a, src, hp⟩
        · exact .inl (by omega)
        · rcases step_pending h1 hp with h3 | ⟨h3, -⟩
          · exact .inr ⟨a, src, h3⟩
          · exact .inl h3.ge
      obtain ⟨g, hg, rfl⟩ := hex k hk hor'
      rw [List.append_assoc] at hg
      rcases List.mem_append.1 hg with hg | hg
      · exfalso
        rcases step_fault_class h1 hg with ⟨h3, h4, -⟩ | ⟨a, src, h3, h4, -⟩
        · rcases hor with hle | ⟨a, src, hp⟩
          · omega
          · rw [h4] at hp
            have := hlt hp
            omega
        · rcases hor with hle | ⟨a', src', hp⟩
          · have := hlt h3
            omega
          · rw [h4] at hp
            by_cases haa : a' = a
            · subst haa; simp at hp
            · rw [Function.update_of_ne haa] at hp
              exact haa (huniq hp h3)
      · exact ⟨g, hg, rfl⟩
    have hidle' : ∀ g ∈ f2 ++ s'.unbalanced, taken g.directive = true → ∃ x, ((pre ++ [d]) ++ ds)[g.directive]? = some x ∧ g.fault.idle x := by
      intro g hg hk
      have := hidle g (by rw [List.append_assoc]; exact List.mem_append_right _ hg) hk
      simpa using this
    have hat : (pre ++ d :: ds)[pre.length]? = some d := by simp
    cases hch : taken pre.length with
    | true =>
      have key : Thin taken s1 t ∧ findingsLeft taken f1 = [] := by
        obtain ⟨g, hg, hgn⟩ := hex _ hch (.inl (Nat.le_refl _))
        rw [List.append_assoc] at hg
        rcases List.mem_append.1 hg with hg1 | hg1
        · rcases step_fault_class h1 hg1 with ⟨-, -, h3, h4⟩ | ⟨a, src, h3, -⟩
          · obtain ⟨x, hx, hi⟩ := hidle g (by rw [List.append_assoc]; exact hg) (by rw [hgn]; exact hch)
            rw [hgn, hat] at hx
            cases hx
            obtain rfl := h4 hi
            subst h3
            exact ⟨h, by simp [findingsLeft, hgn, hch]⟩
          · rw [hgn] at h3
            have := hlt h3
            omega
        · rcases run_place ds h2 hg1 with h3 | ⟨a, src, h3⟩
          · omega
          · rw [hgn] at h3
            rcases step_pending h1 h3 with h4 | ⟨-, h4, h5, h6⟩
            · have := hlt h4
              omega
            · subst h6
              exact ⟨h.skip hch h5 src, by rw [h4]; rfl⟩
      obtain ⟨t', g1, g2⟩ := ih hop' key.1 (by rw [hlen]; exact h2) hex' hidle'
      refine ⟨t', ?_, g2⟩
      have hnum : numberIn taken (pre ++ [d]).length = numberIn taken pre.length := by simp [hlen, numberIn, hch]
      rw [hnum, hlen] at g1
      simp only [withoutFrom, hch, if_true]
      rw [g1]
      have : findingsLeft taken (f1 ++ f2) = findingsLeft taken f1 ++ findingsLeft taken f2 := List.filter_append _ _
      rw [this, key.2, List.nil_append]
    | false =>
      have hfill : ∀ b k src, d.variant = .balance b → s.pending b.acc = some (k, src) → taken k = true →
          s.usage b.acc b.cur = none →
          (b.units.sub (s.total b.acc b.cur)).abs.gt (toleranceDec tol.multiplier b) = false := by
        intro b k src hv hp hk hu
        by_contra hne
        rw [Bool.not_eq_false] at hne
        have hstep := h1
        simp only [Tally.step, hv, hu, hne, hp] at hstep
        split at hstep
        · cases hstep
          obtain ⟨g, hg, hgk⟩ := hex k hk (.inr ⟨_, _, hp⟩)
          rw [List.nil_append] at hg
          have hk' := hlt hp
          rcases run_place ds h2 hg with h3 | ⟨a, src', h3⟩
          · omega
          · rw [hgk] at h3
            simp only [Tally.change] at h3
            by_cases haa : a = b.acc
            · subst haa; simp at h3
            · rw [Function.update_of_ne haa] at h3
              exact haa (huniq h3 hp)
        · cases hstep
      have hpad : ∀ p k src, d.variant = .pad p → s.account p.acc = none → s.pending p.acc = some (k, src) → taken k = false := by
        intro p k src hv ha hp
        by_contra hne
        rw [Bool.not_eq_false] at hne
        have hstep := h1
        simp only [Tally.step, hv, ha, hp] at hstep
        cases hstep
        obtain ⟨x, -, hi⟩ := hidle _ (List.mem_append_left _ (List.mem_append_left _ (List.mem_singleton.2 rfl))) hne
        exact hi
      obtain ⟨t1, g1, g2⟩ := h.step hch h1 hfill hpad
      obtain ⟨t', g3, g4⟩ := ih hop' g2 (by rw [hlen]; exact h2) hex' hidle'
      refine ⟨t', ?_, g4⟩
      have hnum : numberIn taken (pre ++ [d]).length = numberIn taken pre.length + 1 := by simp [hlen, numberIn, hch]
      rw [hnum, hlen] at g3
      simp only [withoutFrom, hch, Bool.false_eq_true, if_false, Tally.run, g1, g3]
      have : findingsLeft taken (f1 ++ f2) = findingsLeft taken f1 ++ findingsLeft taken f2 := List.filter_append _ _
      rw [this, List.map_append]

end

theorem without_audit {taken : Nat → Bool} {ds : List Raw.Directive} {fs ps : List Finding} (h : audit L option tol ds = some (fs, ps))
    (hex : ∀ k, taken k = true → ∃ g ∈ fs ++ ps, g.directive = k)
    (hidle : ∀ g ∈ fs ++ ps, taken g.directive = true → ∃ d, ds[g.directive]? = some d ∧ g.fault.idle d) :
    audit L option tol (without taken ds) = some ((findingsLeft taken fs).map (Finding.renumber (numberIn taken)),
      (findingsLeft taken ps).map (Finding.renumber (numberIn taken))) := by
  unfold audit at h
  cases hr : Tally.run option tol 0 (Tally.init L) ds with
  | none => rw [hr] at h; cases h
  | some q =>
    obtain ⟨s, gs⟩ := q
    rw [hr] at h
    simp only [Option.map_some, Option.some.injEq, Prod.mk.injEq] at h
    obtain ⟨rfl, rfl⟩ := h
    have h0 : Thin taken (Tally.init L) (Tally.init L) :=
      ⟨fun a => ⟨rfl, rfl, rfl, rfl, Iff.rfl⟩, rfl⟩
    obtain ⟨t, h1, h2⟩ := Thin.run ds (pre := []) (Tally.Opened.init L) h0 hr (fun k hk _ => hex k hk) (by simpa using hidle)
    unfold audit without
    simp only [List.length_nil, numberIn] at h1
    rw [h1]
    simp only [Option.map_some, h2.unbalanced]

end Limabean
