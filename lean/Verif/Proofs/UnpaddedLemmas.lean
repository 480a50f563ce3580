/-
Transactions instead of pads.
-/
import Mathlib.Tactic.Abel
import Mathlib.Data.Multiset.AddSub
import Verif.Spec.Unpadded
import Verif.Proofs.SwapOutput
import Verif.Proofs.OutputLemmas

namespace Limabean

open Spec

variable {L : BookLib}

/-- The same standing, up to numbers. -/
inductive Standing.Same : Standing → Standing → Prop
  | unknown : Same .unknown .unknown
  | opn (i j) : Same (.opn i) (.opn j)
  | closed (i j) : Same (.closed i) (.closed j)
  | reopened (i j i' j') : Same (.reopened i j) (.reopened i' j')

/-- The same is remembered, up to numbers, but no pads. -/
structure Spelt (s t : Tally L) : Prop where
  names : t.names = s.names
  terms : ∀ a, (t.terms a).map Prod.snd = (s.terms a).map Prod.snd
  standing : ∀ a, Standing.Same (s.standing a) (t.standing a)
  held : t.held = s.held
  pending : ∀ a, t.pending a = none

/-- What is always so. -/
structure Kept (s : Tally L) : Prop where
  nodup : s.names.Nodup
  known : ∀ a, a ∈ s.names ↔ s.standing a ≠ .unknown
  held : ∀ a, a ∈ s.names → (s.held a).isSome
  rest : ∀ a, (s.held a).isSome → a ∈ s.names

theorem Kept.init : Kept (Tally.init L) := ⟨by simp [Tally.init], by simp [Tally.init], by simp [Tally.init], by simp [Tally.init]⟩

theorem Spelt.init : Spelt (Tally.init L) (Tally.init L) := ⟨rfl, fun _ => rfl, fun _ => .unknown, rfl, fun _ => rfl⟩

theorem Spelt.total {s t : Tally L} (h : Spelt s t) (a c : Str) : t.total a c = s.total a c := by
  unfold Tally.total
  rw [h.names, h.held]

theorem Spelt.account {s t : Tally L} (h : Spelt s t) {a : Str} (ha : s.account a = none) : t.account a = none := by
  unfold Tally.account at *
  have := h.standing a
  generalize s.standing a = x at *
  generalize t.standing a = y at *
  cases this <;> simp_all

theorem Spelt.usage {s t : Tally L} (h : Spelt s t) {a c : Str} (ha : s.usage a c = none) : t.usage a c = none := by
  unfold Tally.usage at *
  cases hx : s.account a with
  | some f => simp [hx] at ha
  | none =>
    rw [hx] at ha
    rw [h.account hx]
    have := h.terms a
    cases hs : s.terms a with
    | none =>
      rw [hs] at this
      cases ht : t.terms a with
      | none => rfl
      | some q => rw [ht] at this; cases this
    | some p =>
      rw [hs] at this ha
      cases ht : t.terms a with
      | none => rfl
      | some q =>
        rw [ht] at this
        obtain ⟨i, o⟩ := p
        obtain ⟨j, o'⟩ := q
        simp only [Option.map_some, Option.some.injEq] at this
        subst this
        simp only at ha ⊢
        split at ha
        · rename_i hc
          rw [if_pos hc]
        · cases ha

theorem Spelt.wrongPosting {s t : Tally L} (h : Spelt s t) {i : Nat} {l : List (Interpolated × Raw.PostingSpec)}
    (hl : s.wrongPosting i l = none) : t.wrongPosting i l = none := by
  induction l generalizing i with
  | nil => rfl
  | cons x l ih =>
    obtain ⟨ip, p⟩ := x
    simp only [Tally.wrongPosting] at hl ⊢
    cases hu : s.usage p.acc ip.currency with
    | some f => rw [hu] at hl; cases hl
    | none =>
      rw [hu] at hl
      rw [h.usage hu]
      exact ih hl

theorem Spelt.method {s t : Tally L} (h : Spelt s t) (option : Option Booking) : t.method option = s.method option := by
  funext a
  unfold Tally.method
  have := h.terms a
  cases hs : s.terms a with
  | none =>
    rw [hs] at this
    cases ht : t.terms a with
    | none => rfl
    | some q => rw [ht] at this; cases this
  | some p =>
    rw [hs] at this
    cases ht : t.terms a with
    | none => rw [ht] at this; cases this
    | some q =>
      rw [ht] at this
      simp only [Option.map_some, Option.some.injEq] at this
      simp only [this]

theorem tolerance_val (m : Option Dec) (b : Raw.Balance) : (toleranceDec m b).val = tolerance m b := by
  unfold toleranceDec tolerance
  cases b.tolerance with
  | some t => rfl
  | none =>
    by_cases h : b.units.s = 0
    · simp [h, Dec.val]
    · simp only [h, if_false]
      cases m with
      | none => rw [Dec.val_mul, Dec.val_mul]; simp [Dec.val]; ring
      | some x => rw [Dec.val_mul, Dec.val_mul]; simp [Dec.val]; ring

/-- What is held after moving an amount to an account. -/
theorem total_moved (hL : L.Lawful) {s : Tally L} (hk : Kept s) {a b c : Str} {u : Dec} {p q : L.Pos} (hb : ¬ Below a b) (hp : s.held a = some p) :
    (Tally.total { s with held := (Function.update (Function.update s.held a (some (L.accumulate p u c L.dflt))) b (some (L.accumulate q u.neg c L.dflt))) } a c).val = (s.total a c).val + u.val := by
  have hab : a ≠ b := fun h => hb (h ▸ List.prefix_refl _)
  have ha : a ∈ s.names := hk.rest a (by simp [hp])
  have key : ∀ l : List Str, l.Nodup → (∀ x ∈ l, Below a x) →
      ((l.map fun x => L.units (((Function.update (Function.update s.held a (some (L.accumulate p u c L.dflt))) b
        (some (L.accumulate q u.neg c L.dflt))) x).getD L.empty) c).map Dec.val).sum =
      ((l.map fun x => L.units ((s.held x).getD L.empty) c).map Dec.val).sum + if a ∈ l then u.val else 0 := by
    intro l hn hl
    induction l with
    | nil => simp
    | cons x l ih =>
      have h1 := ih (List.nodup_cons.1 hn).2 (fun y hy => hl y (List.mem_cons_of_mem _ hy))
      have hxb : x ≠ b := fun h => hb (h ▸ hl x (List.mem_cons_self ..))
      simp only [List.map_cons, List.sum_cons, h1, Function.update_of_ne hxb]
      by_cases hx : x = a
      · subst hx
        have : x ∉ l := (List.nodup_cons.1 hn).1
        simp only [Function.update_self, Option.getD_some, hL.units_accumulate, if_true, hp, this, List.mem_cons, true_or]
        simp
        ring
      · have hx' : a ≠ x := fun h => hx h.symm
        simp only [Function.update_of_ne hx, List.mem_cons, hx', false_or]
        ring
  unfold Tally.total
  rw [Dec.val_sum, Dec.val_sum]
  have := key (s.names.filter fun x => decide (Below a x)) (hk.nodup.filter _) (by
    intro x hx
    simpa using (List.mem_filter.1 hx).2)
  rw [this, if_pos (List.mem_filter.2 ⟨ha, decide_eq_true (List.prefix_refl _ : Below a a)⟩)]

/-! ### One directive -/

theorem movements_append (l m : List Booked.Directive) : movements (l ++ m) = movements l ++ movements m := by
  simp [movements, postings]

theorem Kept.same {s s' : Tally L} (h : Kept s) (h1 : s'.names = s.names) (h2 : ∀ a, s'.standing a = .unknown ↔ s.standing a = .unknown)
    (h3 : ∀ a, (s'.held a).isSome = (s.held a).isSome) : Kept s' := by
  refine ⟨by rw [h1]; exact h.nodup, fun a => ?_, fun a ha => ?_, fun a ha => ?_⟩
  · rw [h1, h.known, ne_eq, ne_eq, h2]
  · rw [h3]; exact h.held a (h1 ▸ ha)
  · rw [h1]; exact h.rest a (by rwa [h3] at ha)

theorem change_isSome (s : Tally L) (a : Str) (u : Dec) (c : Str) (x : Str) : ((s.change a u c).held x).isSome = (s.held x).isSome := by
  unfold Tally.change
  by_cases h : x = a
  · subst h; simp
  · simp [Function.update_of_ne h]

theorem foldl_isSome {l : List (Str × L.Pos)} {h : Str → Option L.Pos} (hl : ∀ x ∈ l, (h x.1).isSome) (a : Str) :
    ((l.foldl (fun (h : Str → Option L.Pos) x => Function.update h x.1 (some x.2)) h) a).isSome = (h a).isSome := by
  induction l generalizing h with
  | nil => rfl
  | cons x l ih =>
    have hu : ∀ y, ((Function.update h x.1 (some x.2)) y).isSome = (h y).isSome := by
      intro y
      by_cases hy : y = x.1
      · subst hy; simp [hl x (List.mem_cons_self ..)]
      · rw [Function.update_of_ne hy]
    rw [List.foldl_cons, ih (fun y hy => by rw [hu]; exact hl y (List.mem_cons_of_mem _ hy)), hu]

theorem wrongPosting_nothing {s : Tally L} {i : Nat} {l : List (Interpolated × Raw.PostingSpec)} (h : s.wrongPosting i l = none) :
    ∀ x ∈ l, s.usage x.2.acc x.1.currency = none := by
  induction l generalizing i with
  | nil => simp
  | cons x l ih =>
    obtain ⟨ip, p⟩ := x
    simp only [Tally.wrongPosting] at h
    cases hu : s.usage p.acc ip.currency with
    | some f => rw [hu] at h; cases h
    | none =>
      rw [hu] at h
      intro y hy
      rcases List.mem_cons.1 hy with rfl | hy
      · exact hu
      · exact ih h y hy

theorem usage_known {s : Tally L} {a c : Str} (h : s.usage a c = none) : s.standing a ≠ .unknown := by
  intro hs
  simp [Tally.usage, Tally.account, hs] at h

theorem Kept.step (hL : L.Lawful) {option : Option Booking} {tol : Tolerance} {s s' : Tally L} {n : Nat} {d : Raw.Directive} (h : Kept s)
    (hs : s.step option tol n d = some (s', [])) : Kept s' := by
  unfold Tally.step at hs
  cases hv : d.variant with
  | opn o =>
    simp only [hv] at hs
    cases hst : s.standing o.acc <;> simp only [hst, Tally.unchanged, Option.some.injEq, Prod.mk.injEq, and_false,
      List.cons_ne_nil] at hs
    obtain ⟨rfl, -⟩ := hs
    have hn : o.acc ∉ s.names := fun hm => (h.known _).1 hm hst
    refine ⟨?_, fun a => ?_, fun a ha => ?_, fun a ha => ?_⟩
    · exact List.nodup_append.2 ⟨h.nodup, by simp, by
        intro x hx y hy
        rw [List.mem_singleton] at hy
        subst hy
        exact fun e => hn (e ▸ hx)⟩
    · by_cases ha : a = o.acc
      · subst ha; simp
      · simp [ha, h.known]
    · by_cases hao : a = o.acc
      · subst hao; simp
      · simp only [List.mem_append, List.mem_singleton, hao, or_false] at ha
        simp only [Function.update_of_ne hao]
        exact h.held a ha
    · by_cases hao : a = o.acc
      · subst hao; simp
      · simp only [Function.update_of_ne hao] at ha
        simp [h.rest a ha]
  | close c =>
    simp only [hv] at hs
    cases hst : s.standing c.acc <;> simp only [hst, Tally.unchanged, Option.some.injEq, Prod.mk.injEq, and_false,
      List.cons_ne_nil] at hs
    obtain ⟨rfl, -⟩ := hs
    refine h.same rfl (fun a => ?_) fun _ => rfl
    by_cases ha : a = c.acc
    · subst ha; simp [hst]
    · simp [Function.update_of_ne ha]
  | transaction t =>
    simp only [hv] at hs
    cases hb : L.book d.date t.postings tol s.held (s.method option) with
    | error e => simp [hb, Tally.unchanged] at hs
    | ok r =>
      simp only [hb] at hs
      cases hw : s.wrongPosting 0 (r.interpolated.zip t.postings) with
      | some q => simp [hw] at hs
      | none =>
        simp only [hw, Option.some.injEq, Prod.mk.injEq, and_true] at hs
        subst hs
        refine h.same rfl (fun _ => Iff.rfl) fun a => foldl_isSome ?_ a
        intro x hx
        obtain ⟨p, hp, hpa⟩ := hL.book_accounts _ _ _ _ _ _ hb x.1 x.2 hx
        obtain ⟨i, hi, hip⟩ := List.getElem_of_mem hp
        have hlen := hL.book_length _ _ _ _ _ _ hb
        have : (r.interpolated[i]'(by omega), t.postings[i]) ∈ r.interpolated.zip t.postings := by
          rw [List.mem_iff_getElem]
          exact ⟨i, by simp; omega, by simp⟩
        have hu := wrongPosting_nothing hw _ this
        simp only [hip, hpa] at hu
        exact h.held _ ((h.known _).2 (usage_known hu))
  | balance b =>
    simp only [hv] at hs
    cases hu : s.usage b.acc b.cur with
    | some f => simp [hu, Tally.unchanged] at hs
    | none =>
      simp only [hu] at hs
      generalize b.units.sub (s.total b.acc b.cur) = gap at hs
      cases hg : gap.abs.gt (toleranceDec tol.multiplier b) <;> cases hp : s.pending b.acc <;> simp only [hg, hp] at hs
      · cases hs; exact h
      · cases hs
      · cases hs
      · split at hs
        · cases hs
          exact h.same rfl (fun _ => Iff.rfl) fun a => by rw [change_isSome, change_isSome]
        · cases hs
  | pad p =>
    simp only [hv] at hs
    cases ha : s.account p.acc <;> cases hp : s.pending p.acc <;> simp only [ha, hp, Tally.unchanged] at hs
    · cases hs; exact h.same rfl (fun _ => Iff.rfl) fun _ => rfl
    all_goals cases hs
  | _ =>
    simp only [hv, Option.some.injEq, Prod.mk.injEq, and_true] at hs
    subst hs
    exact h

/-- What is emitted, apart from numbers, and what is filled, in a run of what is written instead of one directive. -/
structure Instead (option : Option Booking) (tol : Tolerance) (s s' : Tally L) (n : Nat) (d : Raw.Directive) (m : Nat) (t : Tally L)
    (ds : List Raw.Directive) (t' : Tally L) : Prop where
  run : Tally.run option tol m t ds = some (t', [])
  spelt : Spelt s' t'
  filled : filled tol (Tally.history option tol m t ds) = []
  moved : movements (emitted option tol (Tally.history option tol m t ds)) =
    ((s.fills tol d).toList.flatMap fun f => f.2) ++ movements (s.emits option tol n d)
  others : ((emitted option tol (Tally.history option tol m t ds)).filter notPadding).map unnumbered =
    ((s.emits option tol n d).filter notPadding).map unnumbered
  warned : ((ds.zipIdx m).flatMap fun x => warns L x.2 x.1).map IndexedReport.reason = (warns L n d).map IndexedReport.reason

theorem Spelt.fills {s t : Tally L} (h : Spelt s t) (tol : Tolerance) (d : Raw.Directive) : t.fills tol d = none := by
  unfold Tally.fills
  cases d.variant with
  | balance b => simp only [h.pending]; split <;> simp_all
  | _ => rfl

theorem Spelt.emits {s t : Tally L} (h : Spelt s t) (option : Option Booking) (tol : Tolerance) (n m : Nat) (d : Raw.Directive) :
    (t.emits option tol m d).map unnumbered = (s.emits option tol n d).map unnumbered := by
  unfold Tally.emits Tally.variants unnumbered
  rw [h.held, h.method]
  simp only [List.map_map]
  rfl

theorem warns_reason (n m : Nat) (d : Raw.Directive) : (warns L n d).map IndexedReport.reason = (warns L m d).map IndexedReport.reason := by
  unfold warns
  cases d.variant with
  | opn o =>
    simp only
    cases o.booking with
    | none => rfl
    | some b => simp only; split <;> rfl
  | _ => rfl

theorem movements_unnumbered (l : List Booked.Directive) : movements (l.map unnumbered) = movements l := by
  unfold movements postings
  rw [List.flatMap_map]
  rfl

theorem notPadding_unnumbered (l : List Booked.Directive) : (l.map unnumbered).filter notPadding = (l.filter notPadding).map unnumbered := by
  rw [List.filter_map]
  rfl

/-- Directives which are written as they are. -/
theorem Instead.same {option : Option Booking} {tol : Tolerance} {s s' t t' : Tally L} {n m : Nat} {d : Raw.Directive} (h : Spelt s t)
    (hf : s.fills tol d = none) (hs : t.step option tol m d = some (t', [])) (h' : Spelt s' t') :
    Instead option tol s s' n d m t [d] t' where
  run := by simp [Tally.run, hs]
  spelt := h'
  filled := by simp [Limabean.filled, Tally.history, hs, h.fills]
  moved := by
    rw [hf]
    simp only [Option.toList_none, List.flatMap_nil, List.nil_append, emitted, Tally.history, hs, List.flatMap_cons, List.append_nil]
    rw [← movements_unnumbered (t.emits option tol m d), h.emits option tol n, movements_unnumbered]
  others := by
    simp only [emitted, Tally.history, hs, List.flatMap_cons, List.append_nil, List.flatMap_nil]
    rw [← notPadding_unnumbered, h.emits option tol n, notPadding_unnumbered]
  warned := by simp [List.zipIdx, warns_reason m n]

/-- One directive. -/
theorem Spelt.step (hL : L.Lawful) (hp : BooksPlainly L) {option : Option Booking} {tol : Tolerance} (dates : Nat → Date) {s s' t : Tally L}
    {n : Nat} {d : Raw.Directive} (h : Spelt s t) (hk : Kept s) (hs : s.step option tol n d = some (s', []))
    (hok : ∀ b k src, d.variant = .balance b → s.pending b.acc = some (k, src) →
      s.usage src b.cur = none ∧ ¬ Below b.acc src ∧ 0 ≤ tolerance tol.multiplier b) (m : Nat) :
    ∃ t', Instead option tol s s' n d m t (spelled tol dates (s, n, d)) t' := by
  unfold Tally.step at hs
  cases hv : d.variant with
  | opn o =>
    simp only [hv] at hs
    have hsame := h.standing o.acc
    cases hst : s.standing o.acc <;> simp only [hst, Tally.unchanged, Option.some.injEq, Prod.mk.injEq, and_false,
      List.cons_ne_nil] at hs
    rw [hst] at hsame
    obtain ⟨rfl, -⟩ := hs
    have ht : t.standing o.acc = .unknown := by
      generalize t.standing o.acc = x at hsame
      cases hsame; rfl
    have hf : s.fills tol d = none := by simp [Tally.fills, hv]
    refine ⟨{ t with
        names := t.names ++ [o.acc]
        terms := Function.update t.terms o.acc (some (m, o))
        standing := Function.update t.standing o.acc (.opn m)
        held := Function.update t.held o.acc (some L.empty) }, ?_⟩
    simp only [spelled, hv, hf, Option.toList_none, List.map_nil, List.nil_append]
    refine Instead.same h hf (by simp only [Tally.step, hv, ht]) ⟨?_, fun a => ?_, fun a => ?_, ?_, h.pending⟩
    · simp only [h.names]
    · by_cases ha : a = o.acc
      · subst ha; simp
      · simp only [Function.update_of_ne ha]; exact h.terms a
    · by_cases ha : a = o.acc
      · subst ha; simp only [Function.update_self]; exact .opn _ _
      · simp only [Function.update_of_ne ha]; exact h.standing a
    · simp only [h.held]
  | close c =>
    simp only [hv] at hs
    have hsame := h.standing c.acc
    cases hst : s.standing c.acc <;> simp only [hst, Tally.unchanged, Option.some.injEq, Prod.mk.injEq, and_false,
      List.cons_ne_nil] at hs
    rw [hst] at hsame
    obtain ⟨rfl, -⟩ := hs
    obtain ⟨j, ht⟩ : ∃ j, t.standing c.acc = .opn j := by
      generalize t.standing c.acc = x at hsame
      cases hsame; exact ⟨_, rfl⟩
    have hf : s.fills tol d = none := by simp [Tally.fills, hv]
    refine ⟨{ t with standing := Function.update t.standing c.acc (.closed m) }, ?_⟩
    simp only [spelled, hv, hf, Option.toList_none, List.map_nil, List.nil_append]
    refine Instead.same h hf (by simp only [Tally.step, hv, ht]) ⟨h.names, h.terms, fun a => ?_, h.held, h.pending⟩
    by_cases ha : a = c.acc
    · subst ha; simp only [Function.update_self]; exact .closed _ _
    · simp only [Function.update_of_ne ha]; exact h.standing a
  | transaction x =>
    simp only [hv] at hs
    cases hb : L.book d.date x.postings tol s.held (s.method option) with
    | error e => simp [hb, Tally.unchanged] at hs
    | ok r =>
      simp only [hb] at hs
      cases hw : s.wrongPosting 0 (r.interpolated.zip x.postings) with
      | some q => simp [hw] at hs
      | none =>
        simp only [hw, Option.some.injEq, Prod.mk.injEq, and_true] at hs
        subst hs
        have hf : s.fills tol d = none := by simp [Tally.fills, hv]
        refine ⟨{ t with held := r.updated.foldl (fun h aq => Function.update h aq.1 (some aq.2)) s.held }, ?_⟩
        simp only [spelled, hv, hf, Option.toList_none, List.map_nil, List.nil_append]
        refine Instead.same h hf (by simp only [Tally.step, hv, h.held, h.method, hb, h.wrongPosting hw])
          ⟨h.names, h.terms, h.standing, rfl, h.pending⟩
  | balance b =>
    simp only [hv] at hs
    cases hu : s.usage b.acc b.cur with
    | some f => simp [hu, Tally.unchanged] at hs
    | none =>
      simp only [hu] at hs
      cases hg : (b.units.sub (s.total b.acc b.cur)).abs.gt (toleranceDec tol.multiplier b) <;> cases hq : s.pending b.acc <;>
        simp only [hg, hq] at hs
      · cases hs
        have hf : s.fills tol d = none := by simp [Tally.fills, hv, hg]
        refine ⟨t, ?_⟩
        simp only [spelled, hv, hf, Option.toList_none, List.map_nil, List.nil_append]
        exact Instead.same h hf (by simp only [Tally.step, hv, h.usage hu, h.total, hg, h.pending]) h
      · cases hs
      · cases hs
      · rename_i kq
        obtain ⟨k, src⟩ := kq
        simp only at hs
        obtain ⟨hsrc, hbel, htol⟩ := hok b k src hv hq
        split at hs
        · rename_i hmem
          cases hs
          have hne : b.acc ≠ src := fun e => hbel (e ▸ List.prefix_refl _)
          obtain ⟨p, hp1⟩ := Option.isSome_iff_exists.1 (hk.held b.acc ((hk.known _).2 (usage_known hu)))
          obtain ⟨q, hq1⟩ := Option.isSome_iff_exists.1 (hk.held src hmem)
          generalize hgap : b.units.sub (s.total b.acc b.cur) = gap at *
          have hf : s.fills tol d = some (k, [{ flag := some (str% "'P"), acc := b.acc, units := gap, cur := b.cur },
                { flag := some (str% "'P"), acc := src, units := gap.neg, cur := b.cur }]) := by
            simp [Tally.fills, hv, hgap, hg, hq]
          obtain ⟨r, hr1, hr2, hr3⟩ := hp (dates n) tol s.held (s.method option) b.acc src gap b.cur (some (str% "'P")) p q hne hp1 hq1
          have hheld : ((Tally.change ((Tally.change { s with pending := Function.update s.pending b.acc none } b.acc gap b.cur)) src gap.neg
              b.cur)).held = Function.update (Function.update s.held b.acc (some (L.accumulate p gap b.cur L.dflt))) src
                (some (L.accumulate q gap.neg b.cur L.dflt)) := by
            simp only [Tally.change, hp1, Option.map_some]
            rw [Function.update_of_ne (Ne.symm hne), hq1]
            rfl
          have hstep1 : t.step option tol m (instead (dates n) [{ flag := some (str% "'P"), acc := b.acc, units := gap, cur := b.cur },
                { flag := some (str% "'P"), acc := src, units := gap.neg, cur := b.cur }]) =
              some ({ t with held := (Function.update (Function.update s.held b.acc (some (L.accumulate p gap b.cur L.dflt))) src (some (L.accumulate q gap.neg b.cur L.dflt))) }, []) := by
            simp only [Tally.step, instead, List.map_cons, List.map_nil, plainly, h.held, h.method, hr1, hr2, List.zip_cons_cons,
              Tally.wrongPosting, h.usage hu, h.usage hsrc, List.zip_nil_right, hr3]
          have hsp : Spelt (Tally.change ((Tally.change { s with pending := Function.update s.pending b.acc none } b.acc gap b.cur)) src gap.neg
              b.cur) { t with held := (Function.update (Function.update s.held b.acc (some (L.accumulate p gap b.cur L.dflt))) src (some (L.accumulate q gap.neg b.cur L.dflt))) } :=
            ⟨h.names, h.terms, h.standing, by rw [hheld], h.pending⟩
          generalize ht1 : ({ t with held := (Function.update (Function.update s.held b.acc (some (L.accumulate p gap b.cur L.dflt))) src (some (L.accumulate q gap.neg b.cur L.dflt))) } : Tally L) = t1 at *
          have hmid : Spelt { s with held := t1.held } t1 := by
            subst ht1
            exact ⟨h.names, h.terms, h.standing, rfl, h.pending⟩
          have hlast : (b.units.sub (t1.total b.acc b.cur)).abs.gt (toleranceDec tol.multiplier b) = false := by
            rw [Bool.eq_false_iff, ne_eq, Dec.gt_iff, Dec.val_abs, Dec.val_sub, tolerance_val, hmid.total]
            have : t1.held = (Function.update (Function.update s.held b.acc (some (L.accumulate p gap b.cur L.dflt))) src (some (L.accumulate q gap.neg b.cur L.dflt))) := by
              rw [← ht1]
            rw [this, total_moved hL hk hbel hp1, ← hgap, Dec.val_sub]
            simp only [add_sub_cancel, sub_self, abs_zero]
            exact not_lt.2 htol
          have hstep2 : t1.step option tol (m + 1) d = some (t1, []) := by
            have hu1 : t1.usage b.acc b.cur = none := by
              subst ht1
              exact h.usage hu
            simp only [Tally.step, hv, hu1, hlast, hsp.pending]
          refine ⟨t1, ?_⟩
          simp only [spelled, hv, hf, Option.toList_some, List.map_cons, List.map_nil, List.cons_append, List.nil_append]
          have hem : t.emits option tol m (instead (dates n) [{ flag := some (str% "'P"), acc := b.acc, units := gap, cur := b.cur },
                { flag := some (str% "'P"), acc := src, units := gap.neg, cur := b.cur }]) = [{ idx := m, date := dates n, variant := .transaction { flag := str% "'P", postings := [{ idx := some 0, flag := some (str% "'P"), acc := b.acc, units := gap, cur := b.cur }, { idx := some 1, flag := some (str% "'P"), acc := src, units := gap.neg, cur := b.cur }] } }] := by
            simp only [Tally.emits, Tally.variants, instead, List.map_cons, List.map_nil, plainly, h.held, h.method, hr1, hr2, List.zip_cons_cons]
            rfl
          have hbal : ∀ (x : Tally L) j, x.emits option tol j d = [{ idx := j, date := d.date, tags := d.tags, links := d.links, metadata := d.metadata, variant := .balance { raw := b } }] := by
            intro x j
            simp [Tally.emits, Tally.variants, hv]
          refine ⟨by simp [Tally.run, hstep1, hstep2], hsp, ?_, ?_, ?_, ?_⟩
          · simp [Limabean.filled, Tally.history, hstep1, hstep2, h.fills, hsp.fills]
          · rw [hf]
            simp only [emitted, Tally.history, hstep1, hstep2, List.flatMap_cons, List.flatMap_nil, hem, hbal]
            simp [movements, postings, postingsOf]
          · simp only [emitted, Tally.history, hstep1, hstep2, List.flatMap_cons, List.flatMap_nil, hem, hbal]
            simp [notPadding]
            rfl
          · simp [List.zipIdx, warns, instead, hv]
        · cases hs
  | pad p =>
    simp only [hv] at hs
    cases ha : s.account p.acc <;> cases hq : s.pending p.acc <;> simp only [ha, hq, Tally.unchanged] at hs
    · cases hs
      refine ⟨t, ?_⟩
      simp only [spelled, hv]
      refine ⟨rfl, ⟨h.names, h.terms, h.standing, h.held, h.pending⟩, rfl, ?_, ?_, ?_⟩
      · simp [Tally.history, emitted, Tally.fills, hv, Tally.emits, Tally.variants, movements, postings, postingsOf]
      · simp [Tally.history, emitted, hv, Tally.emits, Tally.variants, notPadding]
      · simp [warns, hv]
    all_goals cases hs
  | _ =>
    simp only [hv, Option.some.injEq, Prod.mk.injEq, and_true] at hs
    subst hs
    have hf : s.fills tol d = none := by simp [Tally.fills, hv]
    refine ⟨t, ?_⟩
    simp only [spelled, hv, hf, Option.toList_none, List.map_nil, List.nil_append]
    exact Instead.same h hf (by simp only [Tally.step, hv]) h

/-! ### All the directives -/

theorem filled_cons (tol : Tolerance) (x : Tally L × Nat × Raw.Directive) (l : List (Tally L × Nat × Raw.Directive)) :
    filled tol (x :: l) = (x.1.fills tol x.2.2).toList ++ filled tol l := by
  unfold filled
  rw [List.filterMap_cons]
  cases x.1.fills tol x.2.2 <;> rfl

/-- All the directives. -/
theorem Spelt.run (hL : L.Lawful) (hp : BooksPlainly L) {option : Option Booking} {tol : Tolerance} (dates : Nat → Date)
    (ds : List Raw.Directive) {s s' t : Tally L} {n : Nat} (h : Spelt s t) (hk : Kept s)
    (hs : Tally.run option tol n s ds = some (s', []))
    (hok : ∀ x n' d b k src, (x, n', d) ∈ Tally.history option tol n s ds → d.variant = .balance b → x.pending b.acc = some (k, src) →
      x.usage src b.cur = none ∧ ¬ Below b.acc src ∧ 0 ≤ tolerance tol.multiplier b) (m : Nat) :
    ∃ t', Tally.run option tol m t ((Tally.history option tol n s ds).flatMap (spelled tol dates)) = some (t', []) ∧ Spelt s' t' ∧
      filled tol (Tally.history option tol m t ((Tally.history option tol n s ds).flatMap (spelled tol dates))) = [] ∧
      (movements (emitted option tol (Tally.history option tol m t ((Tally.history option tol n s ds).flatMap (spelled tol dates))))).Perm
        (((filled tol (Tally.history option tol n s ds)).flatMap fun f => f.2) ++
          movements (emitted option tol (Tally.history option tol n s ds))) ∧
      ((emitted option tol (Tally.history option tol m t ((Tally.history option tol n s ds).flatMap (spelled tol dates)))).filter
          notPadding).map unnumbered =
        ((emitted option tol (Tally.history option tol n s ds)).filter notPadding).map unnumbered ∧
      ((((Tally.history option tol n s ds).flatMap (spelled tol dates)).zipIdx m).flatMap fun x => warns L x.2 x.1).map
          IndexedReport.reason =
        ((ds.zipIdx n).flatMap fun x => warns L x.2 x.1).map IndexedReport.reason := by
  induction ds generalizing s t n m with
  | nil =>
    simp only [Tally.run, Option.some.injEq, Prod.mk.injEq, and_true] at hs
    subst hs
    exact ⟨t, rfl, h, rfl, List.Perm.refl _, rfl, rfl⟩
  | cons d ds ih =>
    simp only [Tally.run] at hs
    cases hs1 : s.step option tol n d with
    | none => simp [hs1] at hs
    | some q =>
      obtain ⟨s1, fs⟩ := q
      simp only [hs1] at hs
      cases hs2 : Tally.run option tol (n + 1) s1 ds with
      | none => simp [hs2] at hs
      | some q =>
        obtain ⟨s2, fs'⟩ := q
        simp only [hs2, Option.some.injEq, Prod.mk.injEq, List.append_eq_nil_iff] at hs
        obtain ⟨rfl, rfl, rfl⟩ := hs
        obtain ⟨t1, i1⟩ := h.step hL hp dates hk hs1
          (fun b k src => hok s n d b k src (by simp [Tally.history])) m
        obtain ⟨t2, r1, r2, r3, r4, r5, r6⟩ := ih i1.spelt (hk.step hL hs1) hs2
          (fun x n' d' b k src hx => hok x n' d' b k src (by simp [Tally.history, hs1, hx])) (m + (spelled tol dates (s, n, d)).length)
        refine ⟨t2, ?_, r2, ?_, ?_, ?_, ?_⟩
        · simp only [Tally.history, hs1, List.flatMap_cons]
          rw [Tally.run_append, i1.run]
          simp only [r1, List.append_nil]
        · simp only [Tally.history, hs1, List.flatMap_cons]
          rw [history_append, i1.run]
          simp only [Limabean.filled, List.filterMap_append] at r3 ⊢
          rw [r3, List.append_nil]
          exact i1.filled
        · simp only [Tally.history, hs1, List.flatMap_cons]
          rw [history_append, i1.run]
          have e1 := i1.moved
          rw [filled_cons, List.flatMap_append]
          simp only [emitted, movements_append, List.flatMap_append] at r4 e1 ⊢
          rw [e1, List.append_assoc, List.append_assoc]
          refine List.Perm.append_left _ ?_
          refine (List.Perm.append_left _ r4).trans ?_
          rw [← List.append_assoc, ← List.append_assoc]
          exact List.Perm.append_right _ List.perm_append_comm
        · simp only [Tally.history, hs1, List.flatMap_cons]
          rw [history_append, i1.run]
          have e1 := i1.others
          simp only [emitted, List.flatMap_append, List.filter_append, List.map_append] at r5 e1 ⊢
          rw [e1, r5]
        · simp only [Tally.history, hs1, List.flatMap_cons, List.zipIdx_append, List.flatMap_append, List.map_append, List.zipIdx_cons]
          rw [i1.warned]
          have := r6
          rw [this]

/-! ### What was returned with pads -/

/-- The transactions of the pads which are pending are there, without postings. -/
def PadsThere (s : Tally L) (B : List Booked.Directive) : Prop :=
  ∀ a k src, s.pending a = some (k, src) → ∃ (i : Nat) (d : Booked.Directive), B[i]? = some d ∧ d.idx = k ∧
    d.variant = .transaction { flag := str% "'P", postings := [] }

theorem movements_set {l : List Booked.Directive} {i : Nat} {d x : Booked.Directive} (hi : l[i]? = some d) (hd : movements [d] = []) :
    (movements (l.set i x)).Perm (movements [x] ++ movements l) := by
  induction l generalizing i with
  | nil => simp at hi
  | cons y l ih =>
    cases i with
    | zero =>
      simp only [List.getElem?_cons_zero, Option.some.injEq] at hi
      subst hi
      rw [List.set_cons_zero, show x :: l = [x] ++ l from rfl, show y :: l = [y] ++ l from rfl, movements_append, movements_append, hd,
        List.nil_append]
    | succ i =>
      simp only [List.getElem?_cons_succ] at hi
      rw [List.set_cons_succ, show y :: l.set i x = [y] ++ l.set i x from rfl, show y :: l = [y] ++ l from rfl, movements_append,
        movements_append]
      refine ((ih hi).append_left _).trans ?_
      rw [← List.append_assoc, ← List.append_assoc]
      exact List.perm_append_comm.append_right _

theorem filter_set {l : List Booked.Directive} {i : Nat} {d x : Booked.Directive} (hi : l[i]? = some d) (hd : notPadding d = false)
    (hx : notPadding x = false) : (l.set i x).filter notPadding = l.filter notPadding := by
  induction l generalizing i with
  | nil => simp at hi
  | cons y l ih =>
    cases i with
    | zero =>
      simp only [List.getElem?_cons_zero, Option.some.injEq] at hi
      subst hi
      simp [hd, hx]
    | succ i =>
      simp only [List.getElem?_cons_succ] at hi
      simp only [List.set_cons_succ, List.filter_cons, ih hi]

theorem pending_step {option : Option Booking} {tol : Tolerance} {s s' : Tally L} {n : Nat} {d : Raw.Directive}
    (hs : s.step option tol n d = some (s', [])) {a : Str} {k : Nat} {src : Str} (ha : s'.pending a = some (k, src)) :
    s.pending a = some (k, src) ∨ (k = n ∧ ∃ p, d.variant = .pad p) := by
  unfold Tally.step at hs
  cases hv : d.variant with
  | opn o =>
    simp only [hv] at hs
    cases hst : s.standing o.acc <;> simp only [hst, Tally.unchanged, Option.some.injEq, Prod.mk.injEq, and_false,
      List.cons_ne_nil] at hs
    obtain ⟨rfl, -⟩ := hs
    exact Or.inl ha
  | close c =>
    simp only [hv] at hs
    cases hst : s.standing c.acc <;> simp only [hst, Tally.unchanged, Option.some.injEq, Prod.mk.injEq, and_false,
      List.cons_ne_nil] at hs
    obtain ⟨rfl, -⟩ := hs
    exact Or.inl ha
  | transaction t =>
    simp only [hv] at hs
    cases hb : L.book d.date t.postings tol s.held (s.method option) with
    | error e => simp [hb, Tally.unchanged] at hs
    | ok r =>
      simp only [hb] at hs
      cases hw : s.wrongPosting 0 (r.interpolated.zip t.postings) with
      | some q => simp [hw] at hs
      | none =>
        simp only [hw, Option.some.injEq, Prod.mk.injEq, and_true] at hs
        subst hs
        exact Or.inl ha
  | balance b =>
    simp only [hv] at hs
    cases hu : s.usage b.acc b.cur with
    | some f => simp [hu, Tally.unchanged] at hs
    | none =>
      simp only [hu] at hs
      generalize b.units.sub (s.total b.acc b.cur) = gap at hs
      cases hg : gap.abs.gt (toleranceDec tol.multiplier b) <;> cases hp : s.pending b.acc <;> simp only [hg, hp] at hs
      · cases hs; exact Or.inl ha
      · cases hs
      · cases hs
      · split at hs
        · cases hs
          rcases update_some (f := s.pending) (b := b.acc) (x := none) (a := a) ha with ⟨-, h⟩ | ⟨-, h⟩
          · cases h
          · exact Or.inl h
        · cases hs
  | pad p =>
    simp only [hv] at hs
    cases hc : s.account p.acc <;> cases hp : s.pending p.acc <;> simp only [hc, hp, Tally.unchanged] at hs
    · cases hs
      rcases update_some (f := s.pending) ha with ⟨-, h⟩ | ⟨-, h⟩
      · cases h; exact Or.inr ⟨rfl, _, rfl⟩
      · exact Or.inl h
    all_goals cases hs
  | _ =>
    simp only [hv, Option.some.injEq, Prod.mk.injEq, and_true] at hs
    subst hs
    exact Or.inl ha

theorem fills_pending {tol : Tolerance} {s : Tally L} {d : Raw.Directive} {k : Nat} {ps : List Booked.Posting}
    (h : s.fills tol d = some (k, ps)) : ∃ a src, s.pending a = some (k, src) ∧ ∀ p ∈ ps, p.idx = none := by
  unfold Tally.fills at h
  cases hv : d.variant with
  | balance b =>
    simp only [hv] at h
    split at h
    · rename_i k' src _ hp
      cases h
      exact ⟨b.acc, src, hp, by simp⟩
    · cases h
  | _ => simp [hv] at h

/-- What is returned: what was emitted and what was filled in. -/
theorem returned_moved {option : Option Booking} {tol : Tolerance} (ds : List Raw.Directive) {n : Nat} {s s' : Tally L}
    {B : List Booked.Directive} {F : List (Nat × List Booked.Posting)} (hp : FillInv n s F) (hB : OneTxn B) (hlt : ∀ d ∈ B, d.idx < n)
    (ht : PadsThere s B) (hs : Tally.run option tol n s ds = some (s', [])) :
    (movements ((B ++ emitted option tol (Tally.history option tol n s ds)).map (fillIn (F ++ filled tol (Tally.history option tol n s ds))))).Perm
      (movements (B.map (fillIn F)) ++ (((filled tol (Tally.history option tol n s ds)).flatMap fun f => f.2) ++
        movements (emitted option tol (Tally.history option tol n s ds)))) ∧
    ((B ++ emitted option tol (Tally.history option tol n s ds)).map (fillIn (F ++ filled tol (Tally.history option tol n s ds)))).filter notPadding =
      (B.map (fillIn F)).filter notPadding ++ (emitted option tol (Tally.history option tol n s ds)).filter notPadding := by
  induction ds generalizing n s B F with
  | nil => simp [Tally.history, emitted, filled, movements, postings]
  | cons d ds ih =>
    simp only [Tally.run] at hs
    cases hs1 : s.step option tol n d with
    | none => simp [hs1] at hs
    | some q =>
      obtain ⟨s1, fs⟩ := q
      simp only [hs1] at hs
      cases hs2 : Tally.run option tol (n + 1) s1 ds with
      | none => simp [hs2] at hs
      | some q =>
        obtain ⟨s2, fs'⟩ := q
        simp only [hs2, Option.some.injEq, Prod.mk.injEq, List.append_eq_nil_iff] at hs
        obtain ⟨rfl, rfl, rfl⟩ := hs
        have hp1 := hp.step hs1
        have hX : ∀ x ∈ s.emits option tol n d, x.idx = n := fun x hx => emits_idx hx
        have hB1 : OneTxn (B ++ s.emits option tol n d) := hB.append (variants_one option tol s n d) hlt hX
        have hlt1 : ∀ x ∈ B ++ s.emits option tol n d, x.idx < n + 1 := by
          intro x hx
          rcases List.mem_append.1 hx with hx | hx
          · exact Nat.lt_succ_of_lt (hlt x hx)
          · rw [hX x hx]; exact Nat.lt_succ_self n
        have ht1 : PadsThere s1 (B ++ s.emits option tol n d) := by
          intro a k src ha
          rcases pending_step hs1 ha with h | ⟨rfl, p, hv⟩
          · obtain ⟨i, x, h1, h2⟩ := ht a k src h
            exact ⟨i, x, by rw [List.getElem?_append_left (List.getElem?_eq_some_iff.1 h1).1]; exact h1, h2⟩
          · refine ⟨B.length + 1, ⟨k, d.date, d.tags, d.links, d.metadata, .transaction { flag := str% "'P", postings := [] }⟩, ?_, ?_⟩
            · rw [List.getElem?_append_right (by omega)]
              simp [Tally.emits, Tally.variants, hv]
            · exact ⟨rfl, rfl⟩
        obtain ⟨r1, r2⟩ := ih hp1 hB1 hlt1 ht1 hs2
        have hkeep : (s.emits option tol n d).map (fillIn (F ++ (s.fills tol d).toList)) = s.emits option tol n d := by
          conv_rhs => rw [← List.map_id (s.emits option tol n d)]
          refine List.map_congr_left fun x hx => ?_
          rw [fillIn_other _ ?_, id]
          intro f hf
          rw [hX x hx]
          rcases List.mem_append.1 hf with hf | hf
          · exact Nat.ne_of_lt (hp.filled f hf)
          · obtain ⟨k, ps⟩ := f
            obtain ⟨a, src, h1, -⟩ := fills_pending (by simpa using hf)
            exact Nat.ne_of_lt (hp.lt a k src h1)
        have hold : (movements (B.map (fillIn (F ++ (s.fills tol d).toList)))).Perm
              (((s.fills tol d).toList.flatMap fun f => f.2) ++ movements (B.map (fillIn F))) ∧
            (B.map (fillIn (F ++ (s.fills tol d).toList))).filter notPadding = (B.map (fillIn F)).filter notPadding := by
          cases hfl : s.fills tol d with
          | none => simp
          | some f =>
            obtain ⟨k, ps⟩ := f
            obtain ⟨a, src, h1, h2⟩ := fills_pending hfl
            obtain ⟨i, x, g1, g2, g3⟩ := ht a k src h1
            have hfresh : ∀ f ∈ F, f.1 ≠ x.idx := by rw [g2]; exact hp.fresh a k src h1
            have gi : (B.map (fillIn F))[i]? = some x := by
              rw [List.getElem?_map, g1, Option.map_some, fillIn_other F hfresh]
            have := fillIn_set hB gi g3 hfresh ps
            rw [g2] at this
            simp only [Option.toList_some, List.flatMap_cons, List.flatMap_nil, List.append_nil]
            rw [← this]
            refine ⟨(movements_set gi (by simp [movements, postings, postingsOf, g3])).trans ?_, filter_set gi (by simp [notPadding, g3]) ?_⟩
            · refine List.Perm.append_right _ (List.Perm.of_eq ?_)
              simp only [movements, postings, postingsOf, Booked.Directive.withPostings, List.flatMap_cons, List.flatMap_nil, List.append_nil]
              conv_rhs => rw [← List.map_id ps]
              refine List.map_congr_left fun p hp => ?_
              have := h2 p hp
              cases p
              simp only at this
              subst this
              rfl
            · simp [notPadding, Booked.Directive.withPostings]
        rw [show Tally.history option tol n s (d :: ds) = (s, n, d) :: Tally.history option tol (n + 1) s1 ds by
          simp [Tally.history, hs1], filled_cons]
        simp only [emitted, List.flatMap_cons] at r1 r2 ⊢
        rw [← List.append_assoc, ← List.append_assoc]
        refine ⟨r1.trans ?_, ?_⟩
        · rw [List.map_append, movements_append, hkeep, List.flatMap_append]
          refine ((hold.1.append_right _).append_right _).trans ?_
          simp only [movements_append]
          generalize ((s.fills tol d).toList.flatMap fun f => f.2) = u1
          generalize movements (B.map (fillIn F)) = u2
          generalize movements (s.emits option tol n d) = u3
          generalize List.flatMap (fun f => f.2) (filled tol (Tally.history option tol (n + 1) s1 ds)) = u4
          generalize movements (List.flatMap (fun x => Tally.emits option tol x.1 x.2.1 x.2.2) (Tally.history option tol (n + 1) s1 ds)) = u5
          rw [← Multiset.coe_eq_coe]
          simp only [← Multiset.coe_add]
          abel
        · rw [r2, List.map_append, List.filter_append, hkeep, hold.2, List.filter_append, List.append_assoc]

end Limabean
