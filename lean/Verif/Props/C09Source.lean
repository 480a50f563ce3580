/-
C09: the source of a pad. It need not be open, but in an accepted ledger it has been opened before the assertion which the pad serves.
-/
import Verif.Props.C09

namespace Limabean

open Spec

variable {L : BookLib}

namespace Spec

/-- There is a directive which opens the account. -/
def Mentioned (ds : List Raw.Directive) (acc : Str) : Prop := ∃ d ∈ ds, ∃ o, d.variant = .opn o ∧ o.acc = acc

end Spec

theorem Ref.step_names {option : Option Booking} {tol : Tolerance} {history : List Raw.Directive} {s s' : Ref L} {d : Raw.Directive}
    (h : s.step option tol history d = some s') (hn : ∀ a ∈ s.names, Mentioned history a) : ∀ a ∈ s'.names, Mentioned (history ++ [d]) a := by
  have old : ∀ a ∈ s.names, Mentioned (history ++ [d]) a := fun a ha => by
    obtain ⟨e, he, o, h1, h2⟩ := hn a ha
    exact ⟨e, by simp [he], o, h1, h2⟩
  unfold Ref.step at h
  split at h
  · rename_i o hv
    split at h
    · cases h
      intro a ha
      rcases List.mem_append.1 ha with ha | ha
      · exact old a ha
      · rcases List.mem_singleton.1 ha with rfl
        exact ⟨d, by simp, o, hv, rfl⟩
    · cases h
  · split at h
    · cases h; exact old
    · cases h
  · split at h
    · cases h
    · split at h
      · cases h; exact old
      · cases h
  · split at h
    · dsimp only at h
      split at h
      · cases h; exact old
      · split at h
        · cases h; exact old
        · cases h
      · cases h
      · cases h
    · cases h
  · split at h
    · cases h; exact old
    · cases h
  · cases h; exact old

/-- A pad which waits is served by an assertion, or goes on waiting. -/
theorem Ref.step_pending {option : Option Booking} {tol : Tolerance} {history : List Raw.Directive} {s s' : Ref L} {d : Raw.Directive}
    {acc src : Str} (h : s.step option tol history d = some s') (hp : s.pending acc = some src) :
    (∃ b, d.variant = .balance b ∧ b.acc = acc ∧ src ∈ s.names) ∨
    (s'.pending acc = some src ∧ ∀ b, d.variant = .balance b → b.acc ≠ acc) := by
  unfold Ref.step at h
  split at h
  · rename_i o hv
    split at h
    · cases h; exact .inr ⟨hp, fun b hb => by rw [hv] at hb; cases hb⟩
    · cases h
  · rename_i c hv
    split at h
    · cases h; exact .inr ⟨hp, fun b hb => by rw [hv] at hb; cases hb⟩
    · cases h
  · rename_i t hv
    split at h
    · cases h
    · split at h
      · cases h; exact .inr ⟨hp, fun b hb => by rw [hv] at hb; cases hb⟩
      · cases h
  · rename_i b hv
    split at h
    · dsimp only at h
      split at h
      · rename_i hq
        cases h
        refine .inr ⟨hp, fun b' hb => ?_⟩
        rw [hv] at hb
        cases hb
        rintro rfl
        rw [hp] at hq
        cases hq
      · rename_i src' _ hq
        split at h
        · rename_i hm
          cases h
          by_cases hb : b.acc = acc
          · refine .inl ⟨b, hv, hb, ?_⟩
            rw [hb, hp] at hq
            cases hq
            exact hm
          · refine .inr ⟨?_, fun b' hb' => by rw [hv] at hb'; cases hb'; exact hb⟩
            simp only [Ref.change]
            rw [Function.update_of_ne (Ne.symm hb)]
            exact hp
        · cases h
      · cases h
      · cases h
    · cases h
  · rename_i p hv
    split at h
    · rename_i hc
      cases h
      refine .inr ⟨?_, fun b hb => by rw [hv] at hb; cases hb⟩
      simp only
      rw [Function.update_of_ne]
      · exact hp
      · rintro rfl
        rw [hp] at hc
        cases hc.2
    · cases h
  · rename_i hb _ _
    cases h
    refine .inr ⟨hp, fun b hv => ?_⟩
    simp_all

theorem Ref.run_pending {option : Option Booking} {tol : Tolerance} {acc src : Str} : ∀ (ds : List Raw.Directive) {history : List Raw.Directive}
    {s s' : Ref L}, Ref.run option tol history s ds = some s' → (∀ a ∈ s.names, Mentioned history a) → s.pending acc = some src →
    s'.pending acc = none →
    ∃ mid d post b, ds = mid ++ d :: post ∧ d.variant = .balance b ∧ b.acc = acc ∧ Mentioned (history ++ mid) src ∧
      ∀ e ∈ mid, ∀ b', e.variant = .balance b' → b'.acc ≠ acc
  | [], history, s, s', h, _, hp, he => by
    simp only [Ref.run, Option.some.injEq] at h
    subst h
    rw [hp] at he
    cases he
  | d :: ds, history, s, s', h, hn, hp, he => by
    simp only [Ref.run] at h
    split at h
    · rename_i s1 h1
      rcases Ref.step_pending h1 hp with ⟨b, hv, hb, hm⟩ | ⟨hp', hb⟩
      · exact ⟨[], d, ds, b, rfl, hv, hb, by simpa using hn _ hm, by simp⟩
      · obtain ⟨mid, d', post, b, h2, h3, h4, h5, h6⟩ := Ref.run_pending ds h (Ref.step_names h1 hn) hp' he
        refine ⟨d :: mid, d', post, b, by rw [h2]; rfl, h3, h4, by simpa using h5, ?_⟩
        intro e he
        rcases List.mem_cons.1 he with rfl | he
        · exact hb
        · exact h6 e he
    · cases h

theorem Ref.run_split {option : Option Booking} {tol : Tolerance} : ∀ (pre : List Raw.Directive) {history ds : List Raw.Directive}
    {s s' : Ref L}, Ref.run option tol history s (pre ++ ds) = some s' → (∀ a ∈ s.names, Mentioned history a) →
    ∃ s1, Ref.run option tol (history ++ pre) s1 ds = some s' ∧ ∀ a ∈ s1.names, Mentioned (history ++ pre) a
  | [], history, ds, s, s', h, hn => ⟨s, by simpa using h, by simpa using hn⟩
  | d :: pre, history, ds, s, s', h, hn => by
    simp only [List.cons_append, Ref.run] at h
    split at h
    · rename_i s1 h1
      obtain ⟨s2, h2, h3⟩ := Ref.run_split pre h (Ref.step_names h1 hn)
      exact ⟨s2, by simpa using h2, by simpa using h3⟩
    · cases h

/-- **C09**, the source of a pad: in an accepted ledger, after each pad there is an assertion on its account, and before the first such
assertion there is a directive which opens the source of the pad (before or after the pad). It may have been closed again
(`C09_pad_source_not_checked`). -/
theorem C09_source (L : BookLib) (hL : L.Lawful) (order : AMap Str (Account L) → AMap Str (Account L))
    (hf : ∀ m, (order m).Perm m) (o : BookOptions) (ds : List Raw.Directive) (out : List Booked.Directive)
    (w : List IndexedReport) (h : book L order o ds = .success out w)
    (pre : List Raw.Directive) (d : Raw.Directive) (post : List Raw.Directive) (hds : ds = pre ++ d :: post) (p : Raw.Pad)
    (hv : d.variant = .pad p) :
    ∃ mid d' post' b, post = mid ++ d' :: post' ∧ d'.variant = .balance b ∧ b.acc = p.acc ∧
      (∀ e ∈ mid, ∀ b', e.variant = .balance b' → b'.acc ≠ p.acc) ∧ Mentioned (pre ++ d :: mid) p.source := by
  obtain ⟨s, hrun, hend⟩ := (accepted_iff hL hf o ds).1 ⟨out, w, h⟩
  subst hds
  obtain ⟨s1, h1, hn⟩ := Ref.run_split pre hrun (by simp [Ref.init])
  simp only [Ref.run] at h1
  split at h1
  · rename_i s2 h2
    have hp : s2.pending p.acc = some p.source := by
      unfold Ref.step at h2
      rw [hv] at h2
      dsimp only at h2
      split at h2
      · cases h2; simp
      · cases h2
    obtain ⟨mid, d', post', b, g1, g2, g3, g4, g5⟩ := Ref.run_pending post h1 (Ref.step_names h2 hn) hp (hend _)
    exact ⟨mid, d', post', b, g1, g2, g3, g5, by simpa using g4⟩
  · cases h1

/-- A case: the source is opened after the pad, and before the assertion. -/
example : (∃ out w, book Toy.lib id {} [Toy.mkOpen 1 Ex.bank, Toy.mkPad 2 Ex.bank Ex.equity, Toy.mkOpen 3 Ex.equity,
    Toy.mkBal 4 Ex.bank ⟨10, 0⟩ Ex.nzd] = .success out w) ∧
    book Toy.lib id {} [Toy.mkOpen 1 Ex.bank, Toy.mkPad 2 Ex.bank Ex.equity, Toy.mkBal 4 Ex.bank ⟨10, 0⟩ Ex.nzd, Toy.mkOpen 5 Ex.equity] =
      .panic := by
  refine ⟨⟨_, _, rfl⟩, by decide +kernel⟩

end Limabean
