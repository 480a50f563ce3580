/-
The first directives of an accepted ledger: what booking returns for them alone, and which accounts they use.
-/
import Verif.Proofs.InsertedLemmas
import Verif.Props.C110

namespace Limabean

open Spec Clj

variable {L : BookLib}

/-! ### Fills -/

/-- Pads which wait have numbers not below a bound. -/
def PendingFrom (n : Nat) (s : Tally L) : Prop := ∀ a k src, s.pending a = some (k, src) → n ≤ k

theorem pendingFrom_step {option : Option Booking} {tol : Tolerance} {m n : Nat} {s s' : Tally L} {d : Raw.Directive} {fs : List Finding}
    (h : PendingFrom m s) (hmn : m ≤ n) (hs : s.step option tol n d = some (s', fs)) : PendingFrom m s' := by
  have upd : ∀ a, PendingFrom m ({ s with pending := Function.update s.pending a none } : Tally L) := by
    intro a b k src hk
    simp only [Function.update_apply] at hk
    split at hk
    · cases hk
    · exact h b k src hk
  have chg : ∀ {t : Tally L} (a u c), PendingFrom m t → PendingFrom m (t.change a u c) := fun _ _ _ ht => ht
  unfold Tally.step at hs
  cases hv : d.variant with
  | opn o =>
    simp only [hv] at hs
    split at hs <;> simp only [Tally.unchanged, Option.some.injEq, Prod.mk.injEq] at hs <;> obtain ⟨rfl, -⟩ := hs <;> exact h
  | close c =>
    simp only [hv] at hs
    split at hs <;> simp only [Tally.unchanged, Option.some.injEq, Prod.mk.injEq] at hs <;> obtain ⟨rfl, -⟩ := hs <;> exact h
  | transaction t =>
    simp only [hv] at hs
    split at hs
    · simp only [Tally.unchanged, Option.some.injEq, Prod.mk.injEq] at hs; obtain ⟨rfl, -⟩ := hs; exact h
    · split at hs <;> simp only [Option.some.injEq, Prod.mk.injEq] at hs <;> obtain ⟨rfl, -⟩ := hs <;> exact h
  | balance b =>
    simp only [hv] at hs
    split at hs
    · simp only [Tally.unchanged, Option.some.injEq, Prod.mk.injEq] at hs; obtain ⟨rfl, -⟩ := hs; exact h
    · split at hs
      · simp only [Option.some.injEq, Prod.mk.injEq] at hs; obtain ⟨rfl, -⟩ := hs; exact h
      · simp only [Option.some.injEq, Prod.mk.injEq] at hs; obtain ⟨rfl, -⟩ := hs; exact upd _
      · simp only [Option.some.injEq, Prod.mk.injEq] at hs; obtain ⟨rfl, -⟩ := hs; exact chg _ _ _ h
      · split at hs
        · simp only [Option.some.injEq, Prod.mk.injEq] at hs; obtain ⟨rfl, -⟩ := hs; exact chg _ _ _ (chg _ _ _ (upd _))
        · cases hs
  | pad p =>
    simp only [hv] at hs
    split at hs
    · simp only [Tally.unchanged, Option.some.injEq, Prod.mk.injEq] at hs; obtain ⟨rfl, -⟩ := hs; exact h
    · simp only [Option.some.injEq, Prod.mk.injEq] at hs; obtain ⟨rfl, -⟩ := hs; exact upd _
    · simp only [Option.some.injEq, Prod.mk.injEq] at hs; obtain ⟨rfl, -⟩ := hs
      intro b k src hk
      simp only [Function.update_apply] at hk
      split at hk
      · simp only [Option.some.injEq, Prod.mk.injEq] at hk
        omega
      · exact h b k src hk
  | _ =>
    simp only [hv, Option.some.injEq, Prod.mk.injEq] at hs
    obtain ⟨rfl, -⟩ := hs
    exact h

theorem filled_from {option : Option Booking} {tol : Tolerance} {m : Nat} (ds : List Raw.Directive) {n : Nat} {s : Tally L}
    (h : PendingFrom m s) (hmn : m ≤ n) : ∀ f ∈ filled tol (Tally.history option tol n s ds), m ≤ f.1 := by
  induction ds generalizing n s with
  | nil => simp [Tally.history, filled]
  | cons d ds ih =>
    intro f hf
    simp only [filled, Tally.history, List.filterMap_cons] at hf
    have rest : f ∈ (match s.step option tol n d with
        | some (s', _) => Tally.history option tol (n + 1) s' ds
        | none => []).filterMap (fun x : Tally L × Nat × Raw.Directive => x.1.fills tol x.2.2) → m ≤ f.1 := by
      intro hf
      cases hs : s.step option tol n d with
      | none => simp [hs] at hf
      | some q =>
        obtain ⟨s', fs⟩ := q
        rw [hs] at hf
        exact ih (pendingFrom_step h hmn hs) (by omega) f hf
    cases hfl : s.fills tol d with
    | none => rw [hfl] at hf; exact rest hf
    | some g =>
      rw [hfl] at hf
      rcases List.mem_cons.1 hf with rfl | hf
      · unfold Tally.fills at hfl
        cases hv : d.variant <;> simp only [hv, reduceCtorEq] at hfl
        rename_i b
        split at hfl
        · rename_i k src _ hk
          simp only [Option.some.injEq] at hfl
          subst hfl
          exact h _ _ _ hk
        · cases hfl
      · exact rest hf

theorem emitted_from (option : Option Booking) (tol : Tolerance) (ds : List Raw.Directive) (n : Nat) (s : Tally L) :
    ∀ d ∈ emitted option tol (Tally.history option tol n s ds), n ≤ d.idx := by
  induction ds generalizing n s with
  | nil => simp [Tally.history, emitted]
  | cons d ds ih =>
    intro x hx
    simp only [emitted, Tally.history, List.flatMap_cons, List.mem_append] at hx
    rcases hx with hx | hx
    · exact (emits_idx hx).ge
    · cases hs : s.step option tol n d with
      | none => simp [hs] at hx
      | some q =>
        obtain ⟨s', fs⟩ := q
        rw [hs] at hx
        have := ih (n + 1) s' x hx
        omega

/-! ### The first directives alone -/

theorem unbalanced_nil {pre : List Raw.Directive} {s : Tally L} (h : Led pre s) (hw : Waits pre s) :
    s.unbalanced = [] ↔ ∀ a, padWaits pre a = false := by
  unfold Tally.unbalanced
  rw [List.filterMap_eq_nil_iff]
  constructor
  · intro hn a
    have := hw a
    cases hp : padWaits pre a with
    | false => rfl
    | true =>
      rw [hp] at this
      have hk := h.known a this
      have := hn a hk
      simp_all
  · intro hn a _
    rw [waits_none hw (hn a)]
    rfl

/-- The first directives of an accepted ledger are accepted if and only if no pad waits after them; and then what is returned for them is
the first part of what is returned. -/
theorem accepted_first (hL : L.Lawful) {order : AMap Str (Account L) → AMap Str (Account L)} (hf : ∀ m, (order m).Perm m) {o : BookOptions}
    {pre post : List Raw.Directive} {out : List Booked.Directive} {w : List IndexedReport}
    (h : book L order o (pre ++ post) = .success out w) :
    ((∃ out' w', book L order o pre = .success out' w') ↔ ∀ a, padWaits pre a = false) ∧
    ∀ out' w', book L order o pre = .success out' w' →
      ∃ more warn, out = out' ++ more ∧ w = w' ++ warn ∧ ∀ x ∈ more, pre.length ≤ x.idx := by
  obtain ⟨s, h1, h2, h3⟩ := accepted_prefix hL hf h
  have ha : audit L o.bookingMethod o.tolerance pre = some ([], s.unbalanced) := by simp [audit, h1]
  refine ⟨?_, ?_⟩
  · constructor
    · rintro ⟨out', w', h'⟩
      have := ((C82_returned L hL order hf o _ out' w').1 h').1
      rw [ha] at this
      simp only [Option.some.injEq, Prod.mk.injEq, true_and] at this
      exact (unbalanced_nil h2 h3).1 this
    · intro hn
      exact ⟨_, _, (C82_returned L hL order hf o _ _ _).2 ⟨by rw [ha, (unbalanced_nil h2 h3).2 hn], rfl, rfl⟩⟩
  · intro out' w' h'
    obtain ⟨-, ho, hw⟩ := (C82_returned L hL order hf o _ out w).1 h
    obtain ⟨ha', ho', hw'⟩ := (C82_returned L hL order hf o _ out' w').1 h'
    obtain ⟨s0, h10, -, -, -, hlt⟩ := accepted_led hL hf h'
    have hnone : ∀ a, s.pending a = none := by
      intro a
      rw [ha] at ha'
      simp only [Option.some.injEq, Prod.mk.injEq, true_and] at ha'
      exact waits_none h3 ((unbalanced_nil h2 h3).1 ha' a)
    have hap := returned_append (L := L) o.bookingMethod o.tolerance pre post h1 hlt
      (filled_from post (fun a k src hk => by rw [hnone a] at hk; cases hk) le_rfl) (emitted_from _ _ _ _ _)
    refine ⟨_, _, by rw [ho, ho', hap], by rw [hw, hw', warned_append], ?_⟩
    intro x hx
    unfold returnedOf at hx
    obtain ⟨y, hy, rfl⟩ := List.mem_map.1 hx
    rw [fillIn_idx]
    exact emitted_from _ _ _ _ _ y hy

/-! ### Accounts used -/

theorem lotPostings_acc {i : Nat} {ip : Interpolated} {p : Raw.PostingSpec} {q : Booked.Posting} (h : q ∈ lotPostings i ip p) : q.acc = p.acc := by
  unfold lotPostings at h
  cases hc : ip.cost with
  | none => simp only [hc, List.mem_singleton] at h; rw [h]
  | some l => simp only [hc, List.mem_map] at h; obtain ⟨_, -, rfl⟩ := h; rfl

theorem postingsFor_acc {zs : List (Interpolated × Raw.PostingSpec)} {q : Booked.Posting} (h : q ∈ postingsFor zs) : ∃ z ∈ zs, q.acc = z.2.acc := by
  unfold postingsFor at h
  obtain ⟨z, hz, hq⟩ := List.mem_flatMap.1 h
  have := List.mem_zipIdx hz
  exact ⟨z.1, by rw [this.2.2]; exact List.getElem_mem _, lotPostings_acc hq⟩

theorem names_grow {option : Option Booking} {tol : Tolerance} {n : Nat} {s s' : Tally L} {d : Raw.Directive} {fs : List Finding}
    (hs : s.step option tol n d = some (s', fs)) {a : Str} (ha : a ∈ s.names) : a ∈ s'.names := by
  unfold Tally.step at hs
  cases hv : d.variant with
  | opn o =>
    simp only [hv] at hs
    split at hs <;> simp only [Tally.unchanged, Option.some.injEq, Prod.mk.injEq] at hs <;> obtain ⟨rfl, -⟩ := hs <;> simp [ha]
  | close c =>
    simp only [hv] at hs
    split at hs <;> simp only [Tally.unchanged, Option.some.injEq, Prod.mk.injEq] at hs <;> obtain ⟨rfl, -⟩ := hs <;> exact ha
  | transaction t =>
    simp only [hv] at hs
    split at hs
    · simp only [Tally.unchanged, Option.some.injEq, Prod.mk.injEq] at hs; obtain ⟨rfl, -⟩ := hs; exact ha
    · split at hs <;> simp only [Option.some.injEq, Prod.mk.injEq] at hs <;> obtain ⟨rfl, -⟩ := hs <;> exact ha
  | balance b =>
    simp only [hv] at hs
    split at hs
    · simp only [Tally.unchanged, Option.some.injEq, Prod.mk.injEq] at hs; obtain ⟨rfl, -⟩ := hs; exact ha
    · split at hs
      · simp only [Option.some.injEq, Prod.mk.injEq] at hs; obtain ⟨rfl, -⟩ := hs; exact ha
      · simp only [Option.some.injEq, Prod.mk.injEq] at hs; obtain ⟨rfl, -⟩ := hs; exact ha
      · simp only [Option.some.injEq, Prod.mk.injEq] at hs; obtain ⟨rfl, -⟩ := hs; exact ha
      · split at hs
        · simp only [Option.some.injEq, Prod.mk.injEq] at hs; obtain ⟨rfl, -⟩ := hs; exact ha
        · cases hs
  | pad p =>
    simp only [hv] at hs
    split at hs
    · simp only [Tally.unchanged, Option.some.injEq, Prod.mk.injEq] at hs; obtain ⟨rfl, -⟩ := hs; exact ha
    · simp only [Option.some.injEq, Prod.mk.injEq] at hs; obtain ⟨rfl, -⟩ := hs; exact ha
    · simp only [Option.some.injEq, Prod.mk.injEq] at hs; obtain ⟨rfl, -⟩ := hs; exact ha
  | _ =>
    simp only [hv, Option.some.injEq, Prod.mk.injEq] at hs
    obtain ⟨rfl, -⟩ := hs
    exact ha

/-- What a directive without fault posts, is posted to accounts which are known. -/
theorem posts_known {option : Option Booking} {tol : Tolerance} {n : Nat} {s s' : Tally L} {d : Raw.Directive} (hk : Kept s)
    (hs : s.step option tol n d = some (s', [])) :
    (∀ x ∈ s.emits option tol n d, ∀ q ∈ postingsOf x, q.acc ∈ s'.names) ∧
    ∀ f ∈ s.fills tol d, ∀ q ∈ f.2, q.acc ∈ s'.names := by
  cases hv : d.variant with
  | transaction t =>
    refine ⟨?_, by simp [Tally.fills, hv]⟩
    intro x hx q hq
    refine names_grow hs ?_
    unfold Tally.step at hs
    simp only [hv] at hs
    simp only [Tally.emits, Tally.variants, hv] at hx
    cases hb : L.book d.date t.postings tol s.held (s.method option) with
    | error e => simp [hb] at hx
    | ok r =>
      simp only [hb] at hs
      simp only [hb, List.map_cons, List.map_nil, List.mem_singleton] at hx
      subst hx
      cases hw : s.wrongPosting 0 (r.interpolated.zip t.postings) with
      | some g => simp [hw] at hs
      | none =>
        obtain ⟨z, hz, e⟩ := postingsFor_acc (show q ∈ postingsFor _ from hq)
        rw [e, hk.known]
        exact usage_known (wrongPosting_nothing hw z hz)
  | balance b =>
    refine ⟨by simp [Tally.emits, Tally.variants, hv, postingsOf], ?_⟩
    intro f hf q hq
    refine names_grow hs ?_
    unfold Tally.step at hs
    simp only [hv] at hs
    cases hu : s.usage b.acc b.cur with
    | some g => simp [hu, Tally.unchanged] at hs
    | none =>
      simp only [hu] at hs
      simp only [Tally.fills, hv] at hf
      split at hf
      · rename_i k src hg hp
        simp only [Option.mem_def, Option.some.injEq] at hf
        subst hf
        simp only [hg, hp] at hs
        split at hs
        · rename_i hsrc
          simp only [List.mem_cons, List.not_mem_nil, or_false] at hq
          rcases hq with rfl | rfl
          · exact (hk.known _).2 (usage_known hu)
          · exact hsrc
        · cases hs
      · cases hf
  | _ =>
    refine ⟨?_, by simp [Tally.fills, hv]⟩
    simp [Tally.emits, Tally.variants, hv, postingsOf]

theorem run_known (hL : L.Lawful) {option : Option Booking} {tol : Tolerance} (ds : List Raw.Directive) {n : Nat} {s s' : Tally L} (hk : Kept s)
    (hs : Tally.run option tol n s ds = some (s', [])) :
    (∀ a ∈ s.names, a ∈ s'.names) ∧
    (∀ x ∈ emitted option tol (Tally.history option tol n s ds), ∀ q ∈ postingsOf x, q.acc ∈ s'.names) ∧
    ∀ f ∈ filled tol (Tally.history option tol n s ds), ∀ q ∈ f.2, q.acc ∈ s'.names := by
  induction ds generalizing n s with
  | nil =>
    simp only [Tally.run, Option.some.injEq, Prod.mk.injEq, and_true] at hs
    subst hs
    simp [Tally.history, emitted, filled]
  | cons d ds ih =>
    simp only [Tally.run] at hs
    cases h1 : s.step option tol n d with
    | none => simp [h1] at hs
    | some q =>
      obtain ⟨t, fs⟩ := q
      simp only [h1] at hs
      cases h2 : Tally.run option tol (n + 1) t ds with
      | none => simp [h2] at hs
      | some q =>
        obtain ⟨t', fs'⟩ := q
        simp only [h2, Option.some.injEq, Prod.mk.injEq, List.append_eq_nil_iff] at hs
        obtain ⟨rfl, rfl, rfl⟩ := hs
        obtain ⟨g1, g2, g3⟩ := ih (hk.step hL h1) h2
        obtain ⟨p1, p2⟩ := posts_known hk h1
        refine ⟨fun a ha => g1 a (names_grow h1 ha), ?_, ?_⟩
        · intro x hx q hq
          simp only [emitted, Tally.history, List.flatMap_cons, List.mem_append, h1] at hx
          rcases hx with hx | hx
          · exact g1 _ (p1 x hx q hq)
          · exact g2 x hx q hq
        · intro f hf q hq
          simp only [filled, Tally.history, List.filterMap_cons, h1] at hf
          cases hfl : s.fills tol d with
          | none => rw [hfl] at hf; exact g3 f hf q hq
          | some g =>
            rw [hfl] at hf
            rcases List.mem_cons.1 hf with rfl | hf
            · exact g1 _ (p2 _ hfl q hq)
            · exact g3 f hf q hq

/-- All postings of an accepted ledger are to accounts which it opens. -/
theorem posted_opened (hL : L.Lawful) {order : AMap Str (Account L) → AMap Str (Account L)} (hf : ∀ m, (order m).Perm m) {o : BookOptions}
    {ds : List Raw.Directive} {out : List Booked.Directive} {w : List IndexedReport} (h : book L order o ds = .success out w) :
    ∀ x ∈ out, ∀ q ∈ postingsOf x, life ds q.acc ≠ .never := by
  obtain ⟨-, ho, -⟩ := (C82_returned L hL order hf o _ out w).1 h
  obtain ⟨s, h1, h2, -, -, -⟩ := accepted_led hL hf h
  obtain ⟨-, g2, g3⟩ := run_known hL ds Kept.init h1
  have key : ∀ a, a ∈ s.names → life ds a ≠ .never := by
    intro a ha hn
    have := h2.life a
    rw [hn] at this
    have hu := (h2.kept.known a).1 ha
    generalize s.standing a = x at this hu
    generalize s.terms a = y at this
    cases this
    exact hu rfl
  intro x hx q hq
  refine key _ ?_
  rw [ho] at hx
  unfold returned returnedOf at hx
  obtain ⟨y, hy, rfl⟩ := List.mem_map.1 hx
  unfold fillIn at hq
  split at hq
  · rename_i t f _ hfd
    exact g3 f (List.mem_of_find?_eq_some hfd) q hq
  · exact g2 y hy q hq

end Limabean
