/-
What is returned when neighbouring directives which have nothing to do with each other are exchanged.
-/
import Verif.Proofs.SwapLemmas

namespace Limabean

open Spec

variable {L : BookLib}

theorem history_append (option : Option Booking) (tol : Tolerance) (n : Nat) (s : Tally L) (ds es : List Raw.Directive) :
    Tally.history option tol n s (ds ++ es) = Tally.history option tol n s ds ++
      match Tally.run option tol n s ds with
      | some (s', _) => Tally.history option tol (n + ds.length) s' es
      | none => [] := by
  induction ds generalizing n s with
  | nil => simp [Tally.history, Tally.run]
  | cons d ds ih =>
    simp only [List.cons_append, Tally.history, Tally.run, List.length_cons]
    cases s.step option tol n d with
    | none => rfl
    | some q =>
      obtain ⟨s', fs⟩ := q
      simp only [ih]
      rw [show n + 1 + ds.length = n + (ds.length + 1) by omega]
      cases Tally.run option tol (n + 1) s' ds <;> rfl

/-- The directives of a history. -/
abbrev emitted (option : Option Booking) (tol : Tolerance) (h : List (Tally L × Nat × Raw.Directive)) :
    List Booked.Directive := h.flatMap fun x => x.1.emits option tol x.2.1 x.2.2

/-- The fills of a history. -/
abbrev filled (tol : Tolerance) (h : List (Tally L × Nat × Raw.Directive)) : List (Nat × List Booked.Posting) :=
  h.filterMap fun x => x.1.fills tol x.2.2

theorem Sim.history (hL : L.Lawful) (hlook : LooksAtItsAccounts L) {option : Option Booking} {tol : Tolerance}
    {f : Nat → Nat} (ds : List Raw.Directive) {n : Nat} (hn : ∀ k, n ≤ k → k < n + ds.length → f k = k)
    {s s' : Tally L} (h : Sim f s s') :
    emitted option tol (Tally.history option tol n s' ds) =
      (emitted option tol (Tally.history option tol n s ds)).map (renumbered f) ∧
    filled tol (Tally.history option tol n s' ds) =
      (filled tol (Tally.history option tol n s ds)).map fun z => (f z.1, z.2) := by
  induction ds generalizing n s s' with
  | nil => exact ⟨rfl, rfl⟩
  | cons d ds ih =>
    have he := frame_emits hlook (option := option) (tol := tol) (h.looked d) n
    have hf := frame_fills (tol := tol) (h.looked d)
    have hst := h.step hL hlook (option := option) (tol := tol) n d
    rw [hn n (Nat.le_refl _) (by simp)] at hst he
    have key : ∀ (X X' : List (Tally L × Nat × Raw.Directive)),
        emitted option tol X' = (emitted option tol X).map (renumbered f) →
        filled tol X' = (filled tol X).map (fun z => (f z.1, z.2)) →
        emitted option tol ((s', n, d) :: X') = (emitted option tol ((s, n, d) :: X)).map (renumbered f) ∧
        filled tol ((s', n, d) :: X') = (filled tol ((s, n, d) :: X)).map fun z => (f z.1, z.2) := by
      intro X X' h1 h2
      refine ⟨?_, ?_⟩
      · simp only [emitted, List.flatMap_cons, List.map_append, he] at h1 ⊢
        rw [h1]
      · simp only [filled, List.filterMap_cons, hf] at h2 ⊢
        cases s.fills tol d with
        | none => exact h2
        | some z => simp only [Option.map_some, List.map_cons, h2]
    simp only [Tally.history]
    rcases hst with ⟨h1, h2⟩ | ⟨t, t', fs, h1, h2, h3⟩
    · rw [h1, h2]
      exact key [] [] rfl rfl
    · rw [h1, h2]
      obtain ⟨k1, k2⟩ := ih (n := n + 1) (fun k hk1 hk2 => hn k (by omega) (by simp only [List.length_cons]; omega)) h3
      exact key _ _ k1 k2

theorem find_map {f : Nat → Nat} (hf : ∀ {j k}, f j = f k → j = k) (F : List (Nat × List Booked.Posting)) (k : Nat) :
    (F.map fun z => (f z.1, z.2)).find? (fun z => z.1 = f k) = (F.find? fun z => z.1 = k).map fun z => (f z.1, z.2) := by
  induction F with
  | nil => rfl
  | cons z F ih =>
    simp only [List.map_cons, List.find?_cons]
    by_cases h : z.1 = k
    · simp [h]
    · have : f z.1 ≠ f k := fun hc => h (hf hc)
      simp only [h, this, decide_false]
      exact ih

theorem fillIn_renumbered {f : Nat → Nat} {F F' : List (Nat × List Booked.Posting)}
    (h : ∀ k, F'.find? (fun z => z.1 = f k) = (F.find? fun z => z.1 = k).map fun z => (f z.1, z.2)) (d : Booked.Directive) :
    fillIn F' (renumbered f d) = renumbered f (fillIn F d) := by
  unfold fillIn
  have : F'.find? (fun z => z.1 = (renumbered f d).idx) =
    (F.find? fun z => z.1 = d.idx).map fun z => (f z.1, z.2) := h d.idx
  rw [this]
  obtain ⟨i, date, tags, links, md, v⟩ := d
  unfold renumbered
  simp only
  cases F.find? fun z => z.1 = i with
  | none => cases v <;> rfl
  | some z => cases v <;> rfl

/-- The pads filled by unrelated directives are not the same. -/
theorem fills_ne {tol : Tolerance} {pre : List Raw.Directive} {s : Tally L} (hop : Tally.Opened pre s)
    {x y : Raw.Directive} (hu : Unrelated pre x y) {k : Nat} {ps qs : List Booked.Posting}
    (hx : s.fills tol x = some (k, ps)) (hy : s.fills tol y = some (k, qs)) : False := by
  have inv : ∀ {d : Raw.Directive} {ps}, s.fills tol d = some (k, ps) → ∃ b src, d.variant = .balance b ∧
      s.pending b.acc = some (k, src) := by
    intro d ps h
    unfold Tally.fills at h
    cases hv : d.variant with
    | balance b =>
      simp only [hv] at h
      split at h
      · rename_i k' src _ hp
        cases h
        exact ⟨b, src, rfl, hp⟩
      · cases h
    | _ => simp [hv] at h
  obtain ⟨b, src, hb, hp⟩ := inv hx
  obtain ⟨c, src', hc, hq⟩ := inv hy
  obtain ⟨d, p, h1, h2, h3, -⟩ := hop.pending _ _ _ hp
  obtain ⟨d', p', g1, g2, g3, -⟩ := hop.pending _ _ _ hq
  rw [h1] at g1
  cases g1
  rw [h2] at g2
  cases g2
  refine hu.left b.acc (by simp [concerns, hb]) (Or.inl ?_)
  rw [← h3, g3]
  simp [concerns, hc]

theorem swap_returned (hL : L.Lawful) (hlook : LooksAtItsAccounts L) (option : Option Booking) (tol : Tolerance)
    (pre : List Raw.Directive) (x y : Raw.Directive) (post : List Raw.Directive) (hu : Unrelated pre x y)
    (hok : Tally.run option tol 0 (Tally.init L) (pre ++ x :: y :: post) ≠ none) :
    (returned L option tol (pre ++ y :: x :: post)).Perm
      ((returned L option tol (pre ++ x :: y :: post)).map (renumbered (exchange pre.length))) := by
  have split1 : pre ++ x :: y :: post = pre ++ ([x, y] ++ post) := by simp
  have split2 : pre ++ y :: x :: post = pre ++ ([y, x] ++ post) := by simp
  rw [split1, Tally.run_append] at hok
  rw [split1, split2]
  unfold returned returnedOf
  rw [history_append option tol 0 _ pre ([x, y] ++ post), history_append option tol 0 _ pre ([y, x] ++ post)]
  cases hr : Tally.run option tol 0 (Tally.init L) pre with
  | none => rw [hr] at hok; exact absurd rfl hok
  | some q =>
    obtain ⟨s, fs⟩ := q
    rw [hr] at hok
    simp only [Nat.zero_add] at hok ⊢
    rw [Tally.run_append] at hok
    have h0 := Sim.run hL hlook (option := option) (tol := tol) (f := exchange pre.length) pre (n := 0)
      (fun k _ hk => exchange_lt (by omega)) (Sim.init (L := L) _)
    rw [hr] at h0
    have hop := Tally.Opened.of_run hr
    obtain ⟨e0, f0⟩ := Sim.history hL hlook (option := option) (tol := tol) (f := exchange pre.length) pre (n := 0)
      (fun k _ hk => exchange_lt (by omega)) (Sim.init (L := L) _)
    cases h0 with
    | fine hs hfs =>
      rw [history_append, history_append]
      rcases swap_middle hL hlook (option := option) (tol := tol) hop hu hs with
        ⟨h1, h2⟩ | ⟨s1, s2', s12, s21', fx, fy, h1, h2, h3, h4, h5, h6, h7, h8, h9, h10⟩
      · rw [h1] at hok; exact absurd rfl hok
      · have r1 : Tally.run option tol pre.length s [x, y] = some (s12, fx ++ fy) := by
          simp [Tally.run, h1, h2]
        have r2 : Tally.run option tol pre.length s [y, x] = some (s21',
            fy.map (Finding.renumber (exchange pre.length)) ++ fx.map (Finding.renumber (exchange pre.length))) := by
          simp [Tally.run, h3, h4]
        rw [r1, r2]
        simp only [List.length_cons, List.length_nil]
        obtain ⟨e1, f1⟩ := Sim.history hL hlook (option := option) (tol := tol) (f := exchange pre.length) post
          (n := pre.length + (0 + 1 + 1)) (fun k hk _ => exchange_gt (by omega)) h5
        have m1 : Tally.history option tol pre.length s [x, y] = [(s, pre.length, x), (s1, pre.length + 1, y)] := by
          simp [Tally.history, h1, h2]
        have m2 : Tally.history option tol pre.length s [y, x] = [(s, pre.length, y), (s2', pre.length + 1, x)] := by
          simp [Tally.history, h3, h4]
        rw [m1, m2]
        generalize Tally.history option tol 0 (Tally.init L) pre = H0 at e0 f0 ⊢
        generalize Tally.history option tol (pre.length + (0 + 1 + 1)) s12 post = H1 at e1 f1 ⊢
        generalize Tally.history option tol (pre.length + (0 + 1 + 1)) s21' post = H1' at e1 f1 ⊢
        have hE : (emitted option tol (H0 ++ ([(s, pre.length, y), (s2', pre.length + 1, x)] ++ H1'))).Perm
            ((emitted option tol (H0 ++ ([(s, pre.length, x), (s1, pre.length + 1, y)] ++ H1))).map
              (renumbered (exchange pre.length))) := by
          simp only [emitted, List.flatMap_append, List.map_append, List.flatMap_cons, List.flatMap_nil,
            List.append_nil] at e0 e1 ⊢
          rw [← e0, e1, h6, h7]
          exact (List.perm_append_comm.append_right _).append_left _
        have hF : ∀ k, (filled tol (H0 ++ ([(s, pre.length, y), (s2', pre.length + 1, x)] ++ H1'))).find?
              (fun z => z.1 = exchange pre.length k) =
            ((filled tol (H0 ++ ([(s, pre.length, x), (s1, pre.length + 1, y)] ++ H1))).find?
              fun z => z.1 = k).map fun z => (exchange pre.length z.1, z.2) := by
          intro k
          rw [← find_map exchange_inj]
          have hcons : ∀ (t : Tally L) (m : Nat) (d : Raw.Directive) (H : List (Tally L × Nat × Raw.Directive)),
              filled tol ((t, m, d) :: H) = (t.fills tol d).toList ++ filled tol H := by
            intro t m d H
            simp only [filled, List.filterMap_cons]
            cases t.fills tol d <;> rfl
          have happ : ∀ H K : List (Tally L × Nat × Raw.Directive), filled tol (H ++ K) = filled tol H ++ filled tol K :=
            fun H K => List.filterMap_append
          have a9 : ((s.fills tol y).toList).map (fun z => (exchange pre.length z.1, z.2)) = (s.fills tol y).toList := by
            conv_rhs => rw [h9]
            cases s.fills tol y <;> rfl
          have a10 : (s2'.fills tol x).toList = ((s.fills tol x).toList).map fun z => (exchange pre.length z.1, z.2) := by
            rw [h10]
            cases s.fills tol x <;> rfl
          rw [happ, happ, happ, happ, hcons, hcons, hcons, hcons, h8, a10, f1]
          simp only [List.map_append, a9, ← f0, List.find?_append]
          rw [show filled tol ([] : List (Tally L × Nat × Raw.Directive)) = [] from rfl]
          simp only [List.map_nil, List.find?_nil, Option.or_none]
          congr 1
          congr 1
          cases hx : s.fills tol x with
          | none => simp
          | some u =>
            cases hy : s.fills tol y with
            | none => simp
            | some v =>
              have hv : exchange pre.length v.1 = v.1 := by
                rw [hy] at h9
                simpa using (congrArg (fun q => (q.map fun z => z.1)) h9).symm
              have hne : u.1 ≠ v.1 := by
                intro hc
                obtain ⟨k1, ps⟩ := u
                obtain ⟨k2, qs⟩ := v
                simp only at hc
                subst hc
                exact fills_ne hop hu hx hy
              by_cases h1 : exchange pre.length u.1 = exchange pre.length k
              · have h2 : v.1 ≠ exchange pre.length k := by
                  intro h2
                  exact hne (exchange_inj (h1.trans (h2.symm.trans hv.symm)))
                simp [h1, h2]
              · by_cases h2 : v.1 = exchange pre.length k <;> simp [h1, h2]
        refine (hE.map _).trans ?_
        rw [List.map_map, List.map_map]
        refine List.Perm.of_eq (List.map_congr_left ?_)
        intro d _
        exact fillIn_renumbered hF d

theorem swap_warned (pre : List Raw.Directive) (x y : Raw.Directive) (post : List Raw.Directive) :
    (warned L (pre ++ y :: x :: post)).Perm
      ((warned L (pre ++ x :: y :: post)).map (renumberedReport (exchange pre.length))) := by
  have hone : ∀ (f : Nat → Nat) (n : Nat) (d : Raw.Directive),
      (warns L n d).map (renumberedReport f) = warns L (f n) d := by
    intro f n d
    unfold warns
    split
    · split
      · split <;> rfl
      · rfl
    · rfl
  have hall : ∀ (f : Nat → Nat) (ds : List Raw.Directive) (n : Nat), (∀ k, n ≤ k → k < n + ds.length → f k = k) →
      ((ds.zipIdx n).flatMap fun d => warns L d.2 d.1).map (renumberedReport f) =
        (ds.zipIdx n).flatMap fun d => warns L d.2 d.1 := by
    intro f ds
    induction ds with
    | nil => intros; rfl
    | cons d ds ih =>
      intro n hn
      simp only [List.zipIdx_cons, List.flatMap_cons, List.map_append, hone]
      rw [hn n (Nat.le_refl _) (by simp), ih (n + 1) (fun k h1 h2 => hn k (by omega) (by simp only [List.length_cons]; omega))]
  unfold warned
  simp only [List.zipIdx_append, List.zipIdx_cons, List.flatMap_append, List.flatMap_cons, List.map_append, hone,
    Nat.zero_add, exchange_self, exchange_succ]
  rw [hall _ pre 0 (fun k _ hk => exchange_lt (by omega)), hall _ post _ (fun k hk _ => exchange_gt (by omega))]
  refine List.Perm.append_left _ ?_
  rw [← List.append_assoc, ← List.append_assoc]
  exact List.perm_append_comm.append_right _

end Limabean
