/-
Exchanging neighbouring directives which have nothing to do with each other.
-/
import Verif.Proofs.FrameLemmas
import Verif.Props.C75

namespace Limabean

open Spec

variable {L : BookLib}

/-- The same is remembered, up to numbers and the order of the names. -/
structure Sim (f : Nat → Nat) (s s' : Tally L) : Prop where
  at_ : ∀ a, SameAt f s s' a
  names : s'.names.Perm s.names

theorem Sim.total {f : Nat → Nat} {s s' : Tally L} (h : Sim f s s') (acc cur : Str) : s'.total acc cur = s.total acc cur := by
  unfold Tally.total
  rw [Dec.sum_perm ((h.names.filter _).map _)]
  congr 1
  apply List.map_congr_left
  intro a _
  rw [(h.at_ a).held]

theorem Sim.looked {f : Nat → Nat} {s s' : Tally L} (h : Sim f s s') (d : Raw.Directive) :
    Looked f (fun _ => True) s s' d :=
  ⟨fun a _ => h.at_ a, fun _ _ _ => trivial, fun _ _ _ _ _ => trivial, fun _ _ => h.total _ _⟩

theorem Sim.trans {f g : Nat → Nat} {s s' s'' : Tally L} (h : Sim f s s') (h' : Sim g s' s'') : Sim (g ∘ f) s s'' :=
  ⟨fun a => (h.at_ a).trans (h'.at_ a), h'.names.trans h.names⟩

/-- Runs of similar states. -/
inductive SimRun (f : Nat → Nat) : Option (Tally L × List Finding) → Option (Tally L × List Finding) → Prop
  | crash : SimRun f none none
  | fine {t t' fs fs'} : Sim f t t' → fs'.Perm (fs.map (Finding.renumber f)) → SimRun f (some (t, fs)) (some (t', fs'))

theorem Sim.step (hL : L.Lawful) (hlook : LooksAtItsAccounts L) {option : Option Booking} {tol : Tolerance}
    {f : Nat → Nat} {s s' : Tally L} (h : Sim f s s') (n : Nat) (d : Raw.Directive) :
    (s.step option tol n d = none ∧ s'.step option tol (f n) d = none) ∨
    ∃ t t' fs, s.step option tol n d = some (t, fs) ∧
      s'.step option tol (f n) d = some (t', fs.map (Finding.renumber f)) ∧ Sim f t t' := by
  have := frame_step hL hlook (option := option) (tol := tol) (h.looked d) n
  generalize s.step option tol n d = x at this
  generalize s'.step option tol (f n) d = y at this
  cases this with
  | crash => exact Or.inl ⟨rfl, rfl⟩
  | fine h1 h2 h3 =>
    refine Or.inr ⟨_, _, _, rfl, rfl, fun a => h1 a trivial, ?_⟩
    rw [h2.names, h3.names]
    exact h.names.append_right _

theorem Sim.run (hL : L.Lawful) (hlook : LooksAtItsAccounts L) {option : Option Booking} {tol : Tolerance}
    {f : Nat → Nat} (ds : List Raw.Directive) {n : Nat} (hn : ∀ k, n ≤ k → k < n + ds.length → f k = k)
    {s s' : Tally L} (h : Sim f s s') : SimRun f (Tally.run option tol n s ds) (Tally.run option tol n s' ds) := by
  induction ds generalizing n s s' with
  | nil => exact .fine h (by simp)
  | cons d ds ih =>
    simp only [Tally.run]
    have hst := h.step hL hlook (option := option) (tol := tol) n d
    rw [hn n (Nat.le_refl _) (by simp)] at hst
    rcases hst with ⟨h1, h2⟩ | ⟨t, t', fs, h1, h2, h3⟩
    · rw [h1, h2]; exact .crash
    · rw [h1, h2]
      have := ih (n := n + 1) (fun k hk1 hk2 => hn k (by omega) (by simp only [List.length_cons]; omega)) h3
      simp only
      generalize Tally.run option tol (n + 1) t ds = x at this
      generalize Tally.run option tol (n + 1) t' ds = y at this
      cases this with
      | crash => exact .crash
      | fine g1 g2 =>
        refine .fine g1 ?_
        rw [List.map_append]
        exact g2.append_left _

theorem Tally.run_append (option : Option Booking) (tol : Tolerance) (n : Nat) (s : Tally L)
    (ds es : List Raw.Directive) :
    Tally.run option tol n s (ds ++ es) = match Tally.run option tol n s ds with
      | none => none
      | some (s', fs) => match Tally.run option tol (n + ds.length) s' es with
        | none => none
        | some (s'', fs') => some (s'', fs ++ fs') := by
  induction ds generalizing n s with
  | nil =>
    simp only [List.nil_append, Tally.run, List.length_nil, Nat.add_zero]
    cases Tally.run option tol n s es <;> rfl
  | cons d ds ih =>
    simp only [List.cons_append, Tally.run, List.length_cons]
    cases s.step option tol n d with
    | none => rfl
    | some q =>
      obtain ⟨s', fs⟩ := q
      simp only [ih]
      cases Tally.run option tol (n + 1) s' ds with
      | none => rfl
      | some q =>
        obtain ⟨s'', fs'⟩ := q
        simp only
        rw [show n + 1 + ds.length = n + (ds.length + 1) by omega]
        cases Tally.run option tol (n + (ds.length + 1)) s'' es with
        | none => rfl
        | some q => simp

/-! ### Two directives -/

/-- The state after `pre`, for a directive which concerns the accounts in `W`, and another state which is the same where
it looks. -/
theorem looked_of {pre : List Raw.Directive} {s s' : Tally L} (hop : Tally.Opened pre s) {d : Raw.Directive}
    {V : Str → Prop} {k : List Str} (hc : Changes V s s' k) (hV : ∀ a, LooksAt pre d a → ¬ V a) :
    Looked id (· ∈ concerns pre d) s s' d := by
  refine ⟨fun a ha => hc.rest a (hV a (Or.inl ha)), ?_, ?_, ?_⟩
  · intro a ha hp
    unfold accountsOf at ha
    unfold concerns
    cases hv : d.variant <;> simp only [hv] at ha hp ⊢ <;> try exact ha
    · simp only [List.mem_singleton] at ha; subst ha; simp
    · simp [hp _ rfl]
  · intro b j src hv hp
    obtain ⟨x, p, h1, h2, h3, h4⟩ := hop.pending _ _ _ hp
    simp only [concerns, hv, List.mem_cons]
    right
    unfold padSources
    rw [List.mem_filterMap]
    exact ⟨x, List.mem_of_getElem? h1, by simp [h2, h3, h4]⟩
  · intro b hv
    unfold Tally.total
    have hb : ∀ a, Below b.acc a → ¬ V a := fun a ha => hV a (Or.inr ⟨b, hv, ha⟩)
    rw [hc.names, List.filter_append]
    have : k.filter (fun a => decide (Below b.acc a)) = [] := by
      rw [List.filter_eq_nil_iff]
      intro a ha
      simp only [decide_eq_true_eq]
      exact fun h => hb a h (hc.new a ha)
    rw [this, List.append_nil]
    congr 1
    apply List.map_congr_left
    intro a ha
    rw [List.mem_filter] at ha
    rw [(hc.rest a (hb a (by simpa using ha.2))).held]

theorem Framed.inv {f : Nat → Nat} {W : Str → Prop} {s s' : Tally L} {r r' : Option (Tally L × List Finding)}
    (h : Framed f W s s' r r') : (r = none ∧ r' = none) ∨ ∃ t t' fs k, r = some (t, fs) ∧
      r' = some (t', fs.map (Finding.renumber f)) ∧ (∀ a, W a → SameAt f t t' a) ∧ Changes W s t k ∧
      Changes W s' t' k := by
  cases h with
  | crash => exact Or.inl ⟨rfl, rfl⟩
  | fine h1 h2 h3 => exact Or.inr ⟨_, _, _, _, rfl, rfl, h1, h2, h3⟩

/-- One directive before or after another which has nothing to do with it. -/
theorem commute (hL : L.Lawful) (hlook : LooksAtItsAccounts L) {option : Option Booking} {tol : Tolerance}
    {pre : List Raw.Directive} {s : Tally L} (hop : Tally.Opened pre s) {x y : Raw.Directive} (hu : Unrelated pre x y)
    (n m : Nat) :
    ((match s.step option tol n x with | none => none | some (s1, _) => s1.step option tol m y) = none ∧
     (match s.step option tol m y with | none => none | some (s2, _) => s2.step option tol n x) = none) ∨
    ∃ s1 s2 s12 s21 fx fy, s.step option tol n x = some (s1, fx) ∧ s1.step option tol m y = some (s12, fy) ∧
      s.step option tol m y = some (s2, fy) ∧ s2.step option tol n x = some (s21, fx) ∧ Sim id s12 s21 ∧
      s1.emits option tol m y = s.emits option tol m y ∧ s2.emits option tol n x = s.emits option tol n x ∧
      s1.fills tol y = s.fills tol y ∧ s2.fills tol x = s.fills tol x := by
  have hid : (List.map (Finding.renumber id)) = id := by
    funext l
    conv_rhs => rw [id, ← List.map_id l]
    apply List.map_congr_left
    intro g _
    obtain ⟨d, p, g⟩ := g
    cases g <;> rfl
  have hide : (List.map (renumbered id)) = id := by
    funext l
    conv_rhs => rw [id, ← List.map_id l]
    rfl
  have self : ∀ d, Looked id (· ∈ concerns pre d) s s d := fun d =>
    looked_of hop (Changes.same (fun _ => False) s) (fun _ _ h => h)
  have fx := frame_step hL hlook (option := option) (tol := tol) (self x) n
  have fy := frame_step hL hlook (option := option) (tol := tol) (self y) m
  simp only [id] at fx fy
  rcases fx.inv with ⟨hsx, -⟩ | ⟨s1, -, gx, kx, hsx, -, -, hc1, -⟩
  · left
    rcases fy.inv with ⟨hsy, -⟩ | ⟨s2, -, gy, ky, hsy, -, -, hc2, -⟩
    · rw [hsx, hsy]; exact ⟨rfl, rfl⟩
    · rw [hsx, hsy]
      have := frame_step hL hlook (option := option) (tol := tol)
        (looked_of hop hc2 (fun a ha hw => hu.right a hw ha)) n
      simp only [id] at this
      rw [hsx] at this
      refine ⟨rfl, ?_⟩
      rcases this.inv with ⟨-, h⟩ | ⟨_, _, _, _, h, -⟩
      · exact h
      · cases h
  · have f1 := frame_step hL hlook (option := option) (tol := tol)
      (looked_of hop hc1 (fun a ha hw => hu.left a hw ha)) m
    simp only [id] at f1
    rcases f1.inv with ⟨hsy, hsxy⟩ | ⟨s2, s12, gy, ky, hsy, hsxy, hw2, hc2, hc12⟩
    · left; rw [hsx, hsy]; exact ⟨hsxy, rfl⟩
    · have f2 := frame_step hL hlook (option := option) (tol := tol)
        (looked_of hop hc2 (fun a ha hw => hu.right a hw ha)) n
      simp only [id] at f2
      rw [hsx] at f2
      rcases f2.inv with ⟨h, -⟩ | ⟨s1', s21, gx', kx', h, hsyx, hw1, hc1', hc21⟩
      · cases h
      · cases h
        right
        have hk : kx' = kx := List.append_cancel_left (hc1'.names.symm.trans hc1.names)
        subst hk
        have ex := frame_emits hlook (option := option) (tol := tol)
          (looked_of hop hc2 (fun a ha hw => hu.right a hw ha)) n
        have ey := frame_emits hlook (option := option) (tol := tol)
          (looked_of hop hc1 (fun a ha hw => hu.left a hw ha)) m
        have gxf := frame_fills (tol := tol) (looked_of hop hc2 (fun a ha hw => hu.right a hw ha))
        have gyf := frame_fills (tol := tol) (looked_of hop hc1 (fun a ha hw => hu.left a hw ha))
        rw [hide] at ex ey
        refine ⟨s1, s2, s12, s21, gx, gy, hsx, ?_, hsy, ?_, ⟨?_, ?_⟩, ey, ex, by simpa using gyf, by simpa using gxf⟩
        · rw [hsxy, hid]; rfl
        · rw [hsyx, hid]; rfl
        · intro a
          by_cases hax : a ∈ concerns pre x
          · have hay : ¬ a ∈ concerns pre y := fun h => hu.left a hax (Or.inl h)
            exact (hc12.rest a hay).symm.trans (hw1 a hax)
          · by_cases hay : a ∈ concerns pre y
            · exact (hw2 a hay).symm.trans (hc21.rest a hax)
            · exact ((hc12.rest a hay).symm.trans (hc1.rest a hax).symm).trans
                ((hc2.rest a hay).trans (hc21.rest a hax))
        · rw [hc12.names, hc21.names, hc1.names, hc2.names, List.append_assoc, List.append_assoc]
          exact List.perm_append_comm.append_left _

/-! ### Ledgers -/

theorem exchange_lt {n k : Nat} (h : k < n) : exchange n k = k := by
  unfold exchange; rw [if_neg (by omega), if_neg (by omega)]

theorem exchange_gt {n k : Nat} (h : n + 2 ≤ k) : exchange n k = k := by
  unfold exchange; rw [if_neg (by omega), if_neg (by omega)]

theorem exchange_self (n : Nat) : exchange n n = n + 1 := by simp [exchange]

theorem exchange_succ (n : Nat) : exchange n (n + 1) = n := by simp [exchange]

theorem exchange_inj {n k j : Nat} (h : exchange n k = exchange n j) : k = j := by
  unfold exchange at h
  split at h <;> split at h <;> (try split at h) <;> (try split at h) <;> omega

theorem Sim.init (f : Nat → Nat) : Sim f (Tally.init L) (Tally.init L) :=
  ⟨fun _ => ⟨rfl, rfl, rfl, rfl, Iff.rfl⟩, List.Perm.refl _⟩

/-- All that is needed of the middle of the ledger. -/
theorem swap_middle (hL : L.Lawful) (hlook : LooksAtItsAccounts L) {option : Option Booking} {tol : Tolerance}
    {pre : List Raw.Directive} {s s' : Tally L} (hop : Tally.Opened pre s) {x y : Raw.Directive}
    (hu : Unrelated pre x y) (hs : Sim (exchange pre.length) s s') :
    (Tally.run option tol pre.length s [x, y] = none ∧ Tally.run option tol pre.length s' [y, x] = none) ∨
    ∃ s1 s2' s12 s21' fx fy, s.step option tol pre.length x = some (s1, fx) ∧
      s1.step option tol (pre.length + 1) y = some (s12, fy) ∧
      s'.step option tol pre.length y = some (s2', fy.map (Finding.renumber (exchange pre.length))) ∧
      s2'.step option tol (pre.length + 1) x = some (s21', fx.map (Finding.renumber (exchange pre.length))) ∧
      Sim (exchange pre.length) s12 s21' ∧
      s'.emits option tol pre.length y =
        (s1.emits option tol (pre.length + 1) y).map (renumbered (exchange pre.length)) ∧
      s2'.emits option tol (pre.length + 1) x =
        (s.emits option tol pre.length x).map (renumbered (exchange pre.length)) ∧
      s1.fills tol y = s.fills tol y ∧
      s'.fills tol y = (s.fills tol y).map (fun z => (exchange pre.length z.1, z.2)) ∧
      s2'.fills tol x = (s.fills tol x).map (fun z => (exchange pre.length z.1, z.2)) := by
  have hrun : ∀ (t : Tally L) (n : Nat) (a b : Raw.Directive),
      (match t.step option tol n a with | none => none | some (t1, _) => t1.step option tol (n + 1) b) = none →
      Tally.run option tol n t [a, b] = none := by
    intro t n a b h
    simp only [Tally.run]
    cases h1 : t.step option tol n a with
    | none => rfl
    | some q =>
      simp only [h1] at h ⊢
      rw [h]
  have sy := hs.step hL hlook (option := option) (tol := tol) (pre.length + 1) y
  rw [exchange_succ] at sy
  rcases commute hL hlook (option := option) (tol := tol) hop hu pre.length (pre.length + 1) with
    ⟨h1, h2⟩ | ⟨s1, s2, s12, s21, fx, fy, h1, h2, h3, h4, h5, h6, h7, h8, h9⟩
  · left
    refine ⟨hrun _ _ _ _ h1, hrun _ _ _ _ ?_⟩
    rcases sy with ⟨-, g2⟩ | ⟨t, t', fs, g1, g2, g3⟩
    · rw [g2]
    · rw [g2]
      rw [g1] at h2
      simp only at h2 ⊢
      have sx := g3.step hL hlook (option := option) (tol := tol) pre.length x
      rw [exchange_self] at sx
      rcases sx with ⟨-, k2⟩ | ⟨_, _, _, k1, -⟩
      · exact k2
      · rw [h2] at k1; cases k1
  · right
    rcases sy with ⟨g1, -⟩ | ⟨t, s2', fs, g1, g2, g3⟩
    · rw [h3] at g1; cases g1
    · rw [h3] at g1
      cases g1
      have sx := g3.step hL hlook (option := option) (tol := tol) pre.length x
      rw [exchange_self] at sx
      rcases sx with ⟨k1, -⟩ | ⟨t, s21', fs, k1, k2, k3⟩
      · rw [h4] at k1; cases k1
      · rw [h4] at k1
        cases k1
        have ey := frame_emits hlook (option := option) (tol := tol) (hs.looked y) (pre.length + 1)
        have ex := frame_emits hlook (option := option) (tol := tol) (g3.looked x) pre.length
        rw [exchange_succ] at ey
        rw [exchange_self] at ex
        refine ⟨s1, s2', s12, s21', fx, fy, h1, h2, g2, k2, h5.trans k3, ?_, ?_, h8, frame_fills (hs.looked y), ?_⟩
        · rw [ey, h6]
        · rw [ex, h7]
        · rw [frame_fills (g3.looked x), h9]

theorem Tally.Opened.of_run {option : Option Booking} {tol : Tolerance} {pre : List Raw.Directive} {s : Tally L}
    {fs : List Finding} (h : Tally.run option tol 0 (Tally.init L) pre = some (s, fs)) : Tally.Opened pre s := by
  have := (Tally.Opened.init L).run pre h
  simpa using this

theorem swap_run (hL : L.Lawful) (hlook : LooksAtItsAccounts L) (option : Option Booking) (tol : Tolerance)
    (pre : List Raw.Directive) (x y : Raw.Directive) (post : List Raw.Directive) (hu : Unrelated pre x y) :
    SimRun (exchange pre.length) (Tally.run option tol 0 (Tally.init L) (pre ++ x :: y :: post))
      (Tally.run option tol 0 (Tally.init L) (pre ++ y :: x :: post)) := by
  rw [show pre ++ x :: y :: post = pre ++ ([x, y] ++ post) by simp,
    show pre ++ y :: x :: post = pre ++ ([y, x] ++ post) by simp]
  rw [Tally.run_append, Tally.run_append]
  have h0 := Sim.run hL hlook (option := option) (tol := tol) (f := exchange pre.length) pre (n := 0)
    (fun k _ hk => exchange_lt (by omega)) (Sim.init (L := L) _)
  cases hr : Tally.run option tol 0 (Tally.init L) pre with
  | none => exact .crash
  | some q =>
    obtain ⟨s, fs⟩ := q
    rw [hr] at h0
    cases h0 with
    | fine hs hfs =>
      simp only [Nat.zero_add]
      rw [Tally.run_append, Tally.run_append]
      rcases swap_middle hL hlook (option := option) (tol := tol) (Tally.Opened.of_run hr) hu hs with
        ⟨h1, h2⟩ | ⟨s1, s2', s12, s21', fx, fy, h1, h2, h3, h4, h5, -⟩
      · rw [h1, h2]; exact .crash
      · have r1 : Tally.run option tol pre.length s [x, y] = some (s12, fx ++ fy) := by
          simp [Tally.run, h1, h2]
        have r2 : Tally.run option tol pre.length s [y, x] = some (s21',
            fy.map (Finding.renumber (exchange pre.length)) ++ fx.map (Finding.renumber (exchange pre.length))) := by
          simp [Tally.run, h3, h4]
        rw [r1, r2]
        simp only [List.length_cons, List.length_nil]
        have h6 := Sim.run hL hlook (option := option) (tol := tol) (f := exchange pre.length) post
          (n := pre.length + (0 + 1 + 1)) (fun k hk _ => exchange_gt (by omega)) h5
        generalize Tally.run option tol (pre.length + (0 + 1 + 1)) s12 post = u at h6
        generalize Tally.run option tol (pre.length + (0 + 1 + 1)) s21' post = v at h6
        cases h6 with
        | crash => exact .crash
        | fine g1 g2 =>
          refine .fine g1 ?_
          simp only [List.map_append]
          exact hfs.append (List.perm_append_comm.append g2)

end Limabean
