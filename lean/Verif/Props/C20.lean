/-
C20: errors are stable under extending the ledger.
-/
import Verif.Props.C11
import Verif.Props.C13
import Verif.Proofs.Extend
import Verif.Props.Examples

namespace Limabean

open Spec

variable {L : BookLib}

theorem loop_errors_prefix {env : Env L} (ds : List Raw.Directive) (n : Nat) (r r' : Run L)
    (h : Run.loop env n ds r = some r') : r.errors <+: r'.errors := by
  induction ds generalizing n r with
  | nil => simp only [Run.loop, Option.some.injEq] at h; rw [h]
  | cons d ds ih =>
    simp only [Run.loop] at h
    cases hs : r.step env n d with
    | none => simp [hs] at h
    | some r1 =>
      simp only [hs] at h
      obtain ⟨es, hes⟩ := step_errors hs
      exact List.IsPrefix.trans ⟨es, hes.symm⟩ (ih _ _ h)

/-- C20: the errors recorded for a ledger are an initial segment of those recorded for any extension. -/
theorem C20_errors_prefix (L : BookLib) (order : AMap Str (Account L) → AMap Str (Account L)) (o : BookOptions)
    (ds ds' : List Raw.Directive) (es' : List IndexedReport) (h : errorsOf L order o (ds ++ ds') = some es') :
    ∃ es, errorsOf L order o ds = some es ∧ es <+: es' := by
  obtain ⟨r', hl', he'⟩ := errorsOf_some (by rw [h]; simp : errorsOf L order o (ds ++ ds') ≠ none)
  rw [h] at he'
  cases he'
  rw [Run.loop_append] at hl'
  cases hl : Run.loop (envOf L o order) 0 ds {} with
  | none => rw [hl] at hl'; simp at hl'
  | some r =>
    rw [hl] at hl'
    exact ⟨r.errors, by simp [errorsOf, hl], loop_errors_prefix _ _ _ _ hl'⟩

/-- C20, for answers: what is reported for a ledger (left-over pads at its end aside) is the beginning of what is
reported for any extension, unless booking of the extension panics; in particular no extension succeeds. -/
theorem C20_failure_stays (L : BookLib) (order : AMap Str (Account L) → AMap Str (Account L)) (o : BookOptions)
    (ds ds' : List Raw.Directive) (es : List IndexedReport) (h : book L order o ds = .failure es) :
    ∃ a b, es = a ++ b ∧ (∀ rep ∈ b, rep.reason = .unusedNoBalance) ∧
      (book L order o (ds ++ ds') = .panic ∨ (∃ es', book L order o (ds ++ ds') = .failure (a ++ es')) ∨
        a = [] ∧ ∃ out w, book L order o (ds ++ ds') = .success out w) := by
  unfold book collect at h
  cases hl : Run.loop (envOf L o order) 0 ds {} with
  | none => simp [hl] at h
  | some r =>
    simp only [hl, Run.validate] at h
    split at h
    · cases h
    · cases h
      refine ⟨r.errors, r.st.leftOverPads (envOf L o order), rfl, ?_, ?_⟩
      · intro rep hr
        simp only [State.leftOverPads, List.mem_filterMap, Option.map_eq_some_iff] at hr
        obtain ⟨ka, -, p, -, rfl⟩ := hr
        rfl
      · cases hl' : Run.loop (envOf L o order) 0 (ds ++ ds') {} with
        | none => left; simp [book, collect, hl']
        | some r' =>
          right
          have hp : r.errors <+: r'.errors := by
            rw [Run.loop_append, hl] at hl'
            exact loop_errors_prefix _ _ _ _ hl'
          obtain ⟨x, hx⟩ := hp
          simp only [book, collect, hl', Run.validate]
          split
          · rename_i hemp
            right
            rw [List.isEmpty_iff, ← hx, List.append_eq_nil_iff, List.append_eq_nil_iff] at hemp
            exact ⟨hemp.1.1, _, _, rfl⟩
          · left
            exact ⟨x ++ r'.st.leftOverPads (envOf L o order), by rw [← hx, List.append_assoc]⟩

/-- C20: the booked form of earlier directives does not change under extension, except that an empty transaction, which
follows a pad, may be given the two postings of the padding. -/
theorem C20_booked_stays (L : BookLib) (order : AMap Str (Account L) → AMap Str (Account L)) (o : BookOptions)
    (ds ds' : List Raw.Directive) (r r' : Run L) (h : Run.loop (envOf L o order) 0 ds {} = some r)
    (h' : Run.loop (envOf L o order) 0 (ds ++ ds') {} = some r') (i : Nat) (d : Booked.Directive)
    (hd : r.booked[i]? = some d) :
    r'.booked[i]? = some d ∨
    ∃ j dp p t m cur, i = j + 1 ∧ r.booked[j]? = some dp ∧ dp.variant = .pad p ∧ d.variant = .transaction t ∧
      t.postings = [] ∧
      r'.booked[i]? = some { d with variant := .transaction { t with postings :=
        [ { flag := some padFlag, acc := p.acc, units := m, cur := cur },
          { flag := some padFlag, acc := p.source, units := m.neg, cur := cur } ] } } := by
  rw [Run.loop_append, h] at h'
  have hi := StInv.loop h
  rw [Option.bind_some, Nat.zero_add] at h'
  rcases (Extends.loop ds' _ r r' hi h').booked i d hd with h1 | ⟨a, j, e, t, src, cur, m, rfl, h2, h3, h4, h5, h6, -⟩
  · exact Or.inl h1
  · right
    obtain ⟨dp, p, d2, t2, k1, k2, k3, k4, k5, k6, k7, -⟩ := hi.padAt h2
    have hsrc : src = p.source := by
      obtain ⟨_, _, _, _, _, v⟩ := dp
      simp only at k2
      subst k2
      simp only [padSource, k1, Option.some.injEq] at h3
      exact h3.symm
    subst hsrc
    subst k3
    exact ⟨j, dp, p, t, m, cur, rfl, k1, k2, h4, h5, h6⟩

/-- A case: an error is followed by a pad, which is filled by the extension. -/
example : (errorsOf Toy.lib id {} [Toy.mkOpen 1 Ex.bank, Toy.mkOpen 1 Ex.bank, Toy.mkPad 2 Ex.bank Ex.bank]).map
      List.length = some 1 ∧
    (errorsOf Toy.lib id {} ([Toy.mkOpen 1 Ex.bank, Toy.mkOpen 1 Ex.bank, Toy.mkPad 2 Ex.bank Ex.bank] ++
      [Toy.mkBal 3 Ex.bank ⟨1, 0⟩ Ex.nzd, Toy.mkClose 3 Ex.food])).map List.length = some 2 := by
  decide +kernel

end Limabean
