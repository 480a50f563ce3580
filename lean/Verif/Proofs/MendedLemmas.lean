/-
Booking a mended ledger goes through the same states but for the account from which the pads come.
-/
import Verif.Proofs.SwapLemmas
import Verif.Spec.Mended

namespace Limabean

open Spec

variable {L : BookLib}

/-- The same is remembered of all accounts but one, which is opened in addition. -/
structure Mends (f : Nat → Nat) (e : Str) (s t : Tally L) : Prop where
  same : ∀ a, a ≠ e → SameAt f s t a
  names : t.names.Perm (e :: s.names)
  pending : t.pending e = none

theorem Mends.total {f : Nat → Nat} {e : Str} {s t : Tally L} (h : Mends f e s t) {acc : Str} (cur : Str) (hb : ¬ Below acc e) :
    t.total acc cur = s.total acc cur := by
  unfold Tally.total
  rw [Dec.sum_perm ((h.names.filter _).map _)]
  rw [List.filter_cons_of_neg (by simpa using hb)]
  congr 1
  apply List.map_congr_left
  intro a ha
  rw [List.mem_filter, decide_eq_true_eq] at ha
  rw [(h.same a (fun hc => hb (hc ▸ ha.2))).held]

theorem Mends.step (hL : L.Lawful) (hlook : LooksAtItsAccounts L) {option : Option Booking} {tol : Tolerance} {f : Nat → Nat} {e : Str}
    {pre : List Raw.Directive} {s t s' : Tally L} {fs : List Finding} (hop : Tally.Opened pre s) (hpre : ∀ x ∈ pre, e ∉ accountsOf x)
    (h : Mends f e s t) {n : Nat} {d : Raw.Directive} (hd : e ∉ accountsOf d) (hb : ∀ b, d.variant = .balance b → ¬ Below b.acc e)
    (hs : s.step option tol n d = some (s', fs)) :
    ∃ t', t.step option tol (f n) d = some (t', fs.map (Finding.renumber f)) ∧ Mends f e s' t' := by
  have hl : Looked f (· ≠ e) s t d := by
    refine ⟨h.same, fun a ha _ hc => hd (hc ▸ ha), ?_, fun b hv => h.total _ (hb b hv)⟩
    intro b k src hv hp hc
    obtain ⟨x, p, h1, h2, h3, h4⟩ := hop.pending _ _ _ hp
    refine hpre x (List.mem_of_getElem? h1) ?_
    simp [accountsOf, h2, h4, hc]
  have := frame_step hL hlook (option := option) (tol := tol) hl n
  rw [hs] at this
  rcases this.inv with ⟨h0, -⟩ | ⟨t1, t', gs, k, h1, h2, h3, h4, h5⟩
  · cases h0
  · cases h1
    refine ⟨t', h2, h3, ?_, ?_⟩
    · rw [h4.names, h5.names]
      exact h.names.append_right k
    · have := (h5.rest e (by simp)).pending
      rw [this, h.pending]
      rfl

/-- A failed assertion is found at the assertion, and nothing else is found there. -/
theorem step_isGap {option : Option Booking} {tol : Tolerance} {s s' : Tally L} {n : Nat} {d : Raw.Directive} {fs : List Finding}
    (h : s.step option tol n d = some (s', fs)) {g : Finding} (hg : g ∈ fs) (hf : g.fault.isGap = true) :
    g.directive = n ∧ ∃ b, d.variant = .balance b ∧ s.usage b.acc b.cur = none ∧ s.pending b.acc = none ∧
      (b.units.sub (s.total b.acc b.cur)).abs.gt (toleranceDec tol.multiplier b) = true ∧
      s' = s.change b.acc (b.units.sub (s.total b.acc b.cur)) b.cur ∧
      fs = [{ directive := n, fault := .gap (b.units.sub (s.total b.acc b.cur)) b.cur }] := by
  have acc : ∀ {a x}, s.account a = some x → x.isGap = false := by
    intro a x hx
    unfold Tally.account at hx
    split at hx <;> cases hx <;> rfl
  have use : ∀ {a c x}, s.usage a c = some x → x.isGap = false := by
    intro a c x hx
    unfold Tally.usage at hx
    split at hx
    · rename_i hy
      cases hx
      exact acc hy
    · split at hx <;> cases hx; rfl
    · cases hx
  have wrong : ∀ zs i j x, s.wrongPosting i zs = some (j, x) → x.isGap = false := by
    intro zs
    induction zs with
    | nil => intro i j x hx; cases hx
    | cons z zs ih =>
      obtain ⟨ip, p⟩ := z
      intro i j x hx
      simp only [Tally.wrongPosting] at hx
      split at hx
      · rename_i y hy
        cases hx
        exact use hy
      · exact ih _ _ _ hx
  have no : ∀ {x : Fault}, s.unchanged n x = some (s', fs) → x.isGap = false → False := by
    intro x hx hi
    unfold Tally.unchanged at hx
    cases hx
    rw [List.mem_singleton] at hg
    subst hg
    rw [hi] at hf
    cases hf
  unfold Tally.step at h
  split at h
  · split at h
    · cases h; cases hg
    · exact (no h rfl).elim
    · exact (no h rfl).elim
    · cases h
      rw [List.mem_singleton] at hg
      subst hg
      cases hf
  · split at h
    · cases h; cases hg
    · exact (no h rfl).elim
    · exact (no h rfl).elim
    · exact (no h rfl).elim
  · split at h
    · exact (no h rfl).elim
    · split at h
      · rename_i hw
        cases h
        rw [List.mem_singleton] at hg
        subst hg
        rw [show (Fault.isGap _ = _) from wrong _ _ _ _ hw] at hf
        cases hf
      · cases h; cases hg
  · rename_i b hv
    split at h
    · rename_i hu
      exact (no h (use hu)).elim
    · rename_i hu
      simp only at h
      split at h
      · cases h; cases hg
      · cases h
        rw [List.mem_singleton] at hg
        subst hg
        cases hf
      · rename_i h1 h2
        cases h
        rw [List.mem_singleton] at hg
        subst hg
        exact ⟨rfl, b, hv, hu, h2, h1, rfl, rfl⟩
      · split at h
        · cases h; cases hg
        · cases h
  · split at h
    · rename_i hx
      exact (no h (acc hx)).elim
    · cases h
      rw [List.mem_singleton] at hg
      subst hg
      cases hf
    · cases h; cases hg
  · cases h; cases hg

theorem run_gap {option : Option Booking} {tol : Tolerance} (ds : List Raw.Directive) {s s' : Tally L} {n : Nat} {fs : List Finding}
    (h : Tally.run option tol n s ds = some (s', fs)) {g : Finding} (hg : g ∈ fs) (hf : g.fault.isGap = true) : n ≤ g.directive := by
  induction ds generalizing n s fs with
  | nil => cases h; cases hg
  | cons d ds ih =>
    simp only [Tally.run] at h
    split at h
    · cases h
    · rename_i s1 f1 h1
      split at h
      · cases h
      · rename_i s2 f2 h2
        cases h
        rcases List.mem_append.1 hg with hg | hg
        · exact (step_isGap h1 hg hf).1.ge
        · exact Nat.le_of_succ_le (ih h2 hg)

/-- A pad, and an assertion which fills it, instead of an assertion which fails. -/
theorem Mends.pad {option : Option Booking} {tol : Tolerance} {f : Nat → Nat} {e : Str} {s t : Tally L} (h : Mends f e s t)
    {m k : Nat} {d : Raw.Directive} {b : Raw.Balance} (hv : d.variant = .balance b) (he : b.acc ≠ e) (hb : ¬ Below b.acc e)
    (hu : s.usage b.acc b.cur = none) (hp : s.pending b.acc = none)
    (hg : (b.units.sub (s.total b.acc b.cur)).abs.gt (toleranceDec tol.multiplier b) = true) (date : Date) :
    ∃ t1 t2, t.step option tol m { date := date, variant := .pad { acc := b.acc, source := e } } = some (t1, []) ∧
      t1.step option tol k d = some (t2, []) ∧ Mends f e (s.change b.acc (b.units.sub (s.total b.acc b.cur)) b.cur) t2 := by
  have hsame := h.same _ he
  have hacc : s.account b.acc = none := by
    unfold Tally.usage at hu
    cases hx : s.account b.acc with
    | none => rfl
    | some x => rw [hx] at hu; cases hu
  have hta : t.account b.acc = none := by rw [hsame.account, hacc]; rfl
  have htu : t.usage b.acc b.cur = none := by rw [hsame.usage, hu]; rfl
  have htp : t.pending b.acc = none := by rw [hsame.pending, hp]; rfl
  have htot : t.total b.acc b.cur = s.total b.acc b.cur := h.total _ hb
  have hmem : e ∈ t.names := h.names.mem_iff.2 (by simp)
  refine ⟨{ t with pending := Function.update t.pending b.acc (some (m, e)) },
    (({ t with pending := Function.update (Function.update t.pending b.acc (some (m, e))) b.acc none } : Tally L).change b.acc
      (b.units.sub (s.total b.acc b.cur)) b.cur).change e (b.units.sub (s.total b.acc b.cur)).neg b.cur,
    by simp only [Tally.step, hta, htp], ?_, ?_⟩
  · have hu' : ({ t with pending := Function.update t.pending b.acc (some (m, e)) } : Tally L).usage b.acc b.cur = none := htu
    have ht' : ({ t with pending := Function.update t.pending b.acc (some (m, e)) } : Tally L).total b.acc b.cur =
        s.total b.acc b.cur := htot
    simp only [Tally.step, hv, hu', ht', hg, Function.update_self, hmem, if_true]
  · refine ⟨?_, h.names, ?_⟩
    · intro a ha
      have hs := h.same a ha
      refine ⟨hs.terms, hs.standing, ?_, ?_, hs.names⟩
      · simp only [Tally.change]
        rw [Function.update_of_ne ha]
        by_cases hab : a = b.acc
        · subst hab
          simp [hs.held]
        · rw [Function.update_of_ne hab, Function.update_of_ne hab, hs.held]
      · simp only [Tally.change]
        by_cases hab : a = b.acc
        · subst hab
          simp [hp]
        · simp [Function.update_of_ne hab, hs.pending]
    · simp only [Tally.change]
      rw [Function.update_of_ne (Ne.symm he), Function.update_of_ne (Ne.symm he), h.pending]

/-- Findings other than failed assertions which are chosen. -/
def otherFindings (chosen : Nat → Bool) (fs : List Finding) : List Finding :=
  fs.filter fun g => !(chosen g.directive && g.fault.isGap)

theorem Mends.run (hL : L.Lawful) (hlook : LooksAtItsAccounts L) {option : Option Booking} {tol : Tolerance} {chosen : Nat → Bool} {e : Str}
    (ds : List Raw.Directive) {pre : List Raw.Directive} {s t s' : Tally L} {fs : List Finding} (hop : Tally.Opened pre s)
    (hu : Unused e (pre ++ ds)) (h : Mends (movedTo chosen) e s t) (hs : Tally.run option tol pre.length s ds = some (s', fs))
    (hc : ∀ k, chosen k = true → pre.length ≤ k → ∃ g ∈ fs, g.directive = k ∧ g.fault.isGap = true) :
    ∃ t', Tally.run option tol (pre.length + 1 + countChosen chosen pre.length) t (mendedFrom e chosen pre.length ds) =
        some (t', (otherFindings chosen fs).map (Finding.renumber (movedTo chosen))) ∧ Mends (movedTo chosen) e s' t' := by
  induction ds generalizing pre s t fs with
  | nil =>
    cases hs
    exact ⟨t, rfl, h⟩
  | cons d ds ih =>
    simp only [Tally.run] at hs
    split at hs
    · cases hs
    rename_i s1 f1 h1
    split at hs
    · cases hs
    rename_i s2 f2 h2
    cases hs
    have hd : d ∈ pre ++ d :: ds := by simp
    have hpre : ∀ x ∈ pre, e ∉ accountsOf x := fun x hx => hu.uses x (by simp [hx])
    have hop' : Tally.Opened (pre ++ [d]) s1 := hop.step h1
    have hu' : Unused e ((pre ++ [d]) ++ ds) := by simpa using hu
    have hlen : (pre ++ [d]).length = pre.length + 1 := by simp
    have hc' : ∀ k, chosen k = true → (pre ++ [d]).length ≤ k → ∃ g ∈ f2, g.directive = k ∧ g.fault.isGap = true := by
      intro k hk hle
      rw [hlen] at hle
      obtain ⟨g, hg, hgk, hgf⟩ := hc k hk (by omega)
      rcases List.mem_append.1 hg with hg | hg
      · have := (step_isGap h1 hg hgf).1
        omega
      · exact ⟨g, hg, hgk, hgf⟩
    have hne : e ∉ accountsOf d := hu.uses d hd
    simp only [mendedFrom]
    cases hch : chosen pre.length with
    | false =>
      have hm : pre.length + 1 + countChosen chosen pre.length = movedTo chosen pre.length := by
        simp [movedTo, countChosen, hch]
      obtain ⟨t1, g1, g2⟩ := h.step hL hlook hop hpre hne (hu.above d hd) h1
      obtain ⟨t', g3, g4⟩ := ih hop' hu' g2 (by rw [hlen]; exact h2) hc'
      refine ⟨t', ?_, g4⟩
      have hm' : (pre ++ [d]).length + 1 + countChosen chosen (pre ++ [d]).length = movedTo chosen pre.length + 1 := by
        simp only [hlen, movedTo]; omega
      rw [hm', hlen] at g3
      simp only [Bool.false_eq_true, if_false, List.nil_append, Tally.run, hm, g1, g3]
      have : otherFindings chosen (f1 ++ f2) = f1 ++ otherFindings chosen f2 := by
        unfold otherFindings
        rw [List.filter_append, List.filter_eq_self.2]
        intro g hg
        cases hgf : g.fault.isGap with
        | false => simp
        | true => rw [(step_isGap h1 hg hgf).1, hch]; rfl
      rw [this, List.map_append]
    | true =>
      obtain ⟨g, hg, hgk, hgf⟩ := hc _ hch (Nat.le_refl _)
      have hg1 : g ∈ f1 := by
        rcases List.mem_append.1 hg with hg | hg
        · exact hg
        · have := run_gap ds h2 hg hgf
          omega
      obtain ⟨-, b, hv, k1, k2, k3, k4, k5⟩ := step_isGap h1 hg1 hgf
      have hbe : b.acc ≠ e := by
        intro hx
        exact hne (by simp [accountsOf, hv, hx])
      obtain ⟨t1, t2, p1, p2, p3⟩ := h.pad (option := option) (m := pre.length + 1 + countChosen chosen pre.length)
        (k := pre.length + 1 + countChosen chosen pre.length + 1) hv hbe (hu.above d hd b hv) k1 k2 k3 d.date
      rw [← k4] at p3
      obtain ⟨t', g3, g4⟩ := ih hop' hu' p3 (by rw [hlen]; exact h2) hc'
      refine ⟨t', ?_, g4⟩
      have hm' : (pre ++ [d]).length + 1 + countChosen chosen (pre ++ [d]).length =
          pre.length + 1 + countChosen chosen pre.length + 1 + 1 := by
        simp only [hlen, countChosen, hch, Bool.toNat_true]; omega
      rw [hm', hlen] at g3
      simp only [if_true, padBefore, hv, List.cons_append, List.nil_append, Tally.run, p1, p2, g3]
      have : otherFindings chosen (f1 ++ f2) = otherFindings chosen f2 := by
        unfold otherFindings
        rw [List.filter_append, k5]
        simp [hch, Fault.isGap]
      rw [this]

theorem mended_audit (hL : L.Lawful) (hlook : LooksAtItsAccounts L) {option : Option Booking} {tol : Tolerance} {chosen : Nat → Bool} {e : Str}
    {ds : List Raw.Directive} (hu : Unused e ds) {fs ps : List Finding} (h : audit L option tol ds = some (fs, ps))
    (hc : ∀ k, chosen k = true → ∃ g ∈ fs, g.directive = k ∧ g.fault.isGap = true) (date : Date) :
    ∃ ps', audit L option tol (mended e date chosen ds) = some ((otherFindings chosen fs).map (Finding.renumber (movedTo chosen)), ps') ∧
      ps'.Perm (ps.map (Finding.renumber (movedTo chosen))) := by
  unfold audit at h
  cases hr : Tally.run option tol 0 (Tally.init L) ds with
  | none => rw [hr] at h; cases h
  | some q =>
    obtain ⟨s, gs⟩ := q
    rw [hr] at h
    simp only [Option.map_some, Option.some.injEq, Prod.mk.injEq] at h
    obtain ⟨rfl, rfl⟩ := h
    have h0 : Mends (movedTo chosen) e (Tally.init L) { (Tally.init L) with
        names := [e]
        terms := Function.update (Tally.init L).terms e (some (0, { acc := e }))
        standing := Function.update (Tally.init L).standing e (.opn 0)
        held := Function.update (Tally.init L).held e (some L.empty) } := by
      refine ⟨?_, by simp [Tally.init], rfl⟩
      intro a ha
      refine ⟨?_, ?_, ?_, rfl, by simp [Tally.init, ha]⟩ <;> simp [Tally.init, Function.update_of_ne ha, Standing.renumber]
    obtain ⟨t, h1, h2⟩ := Mends.run hL hlook ds (pre := []) (Tally.Opened.init L) (by simpa using hu) h0 hr (fun k hk _ => hc k hk)
    refine ⟨t.unbalanced, ?_, ?_⟩
    · unfold audit mended
      simp only [Tally.run]
      rw [show (Tally.init L).step option tol 0 { date := date, variant := .opn { acc := e } } = some (_, []) from rfl]
      simp only [List.length_nil, Nat.zero_add, countChosen] at h1
      simp only [Nat.zero_add, Tally.init, List.nil_append] at h1 ⊢
      rw [h1]
      rfl
    · unfold Tally.unbalanced
      rw [List.map_filterMap]
      refine (h2.names.filterMap _).trans ?_
      rw [List.filterMap_cons]
      rw [h2.pending]
      simp only [Option.map_none]
      apply List.Perm.of_eq
      apply List.filterMap_congr
      intro a ha
      have hae : a ≠ e := by
        rintro rfl
        have := (Tally.Opened.of_run hr).names a
        obtain ⟨d, hd, o, hv, ho⟩ := this.1 ha
        exact hu.uses d hd (by simp [accountsOf, hv, ho])
      rw [(h2.same a hae).pending]
      cases s.pending a <;> rfl

end Limabean
