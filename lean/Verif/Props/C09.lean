/-
C09: in an accepted ledger, postings, balances and pads refer to open accounts only.

Not true of the source of a pad (`C09_pad_source_not_checked`), true of everything else (`C09_only_open_accounts_partial`).
-/
import Verif.Proofs.Refine
import Verif.Props.Examples

namespace Limabean

open Spec

/-- The account was opened by one of the directives, and no later one closed it. -/
def OpenBefore (pre : List Raw.Directive) (acc : Str) : Prop :=
  ∃ l d m o, pre = l ++ d :: m ∧ d.variant = .opn o ∧ o.acc = acc ∧
    ∀ d' ∈ m, ∀ c, d'.variant = .close c → c.acc ≠ acc

theorem openBefore_of_isOpen {pre : List Raw.Directive} {acc : Str} (h : IsOpen pre acc) : OpenBefore pre acc := by
  induction pre using List.reverseRecOn with
  | nil => obtain ⟨o, ho⟩ := h; simp [life] at ho
  | append_singleton pre raw ih =>
    obtain ⟨o, ho⟩ := h
    rw [life_snoc] at ho
    cases hl : life pre acc with
    | never =>
      rw [hl] at ho
      cases hv : raw.variant with
      | opn o' =>
        rw [hv] at ho
        by_cases hacc : o'.acc = acc
        · exact ⟨pre, raw, [], o', rfl, hv, hacc, by simp⟩
        · simp [Life.next, hacc] at ho
      | _ => rw [hv] at ho; simp [Life.next] at ho
    | opn o' =>
      obtain ⟨l, d, m, o2, rfl, h1, h2, h3⟩ := ih ⟨o', hl⟩
      refine ⟨l, d, m ++ [raw], o2, by simp, h1, h2, ?_⟩
      intro d' hd' c hc hca
      rcases List.mem_append.1 hd' with hd' | hd'
      · exact h3 d' hd' c hc hca
      · simp only [List.mem_singleton] at hd'
        subst hd'
        rw [hl, hc] at ho
        simp [Life.next, hca] at ho
    | closed o' =>
      rw [hl] at ho
      cases hv : raw.variant <;> rw [hv] at ho <;> simp [Life.next] at ho

variable {L : BookLib}

theorem Good.loop {env : Env L} {ds : List Raw.Directive} {r : Run L} (h : Run.loop env 0 ds {} = some r)
    (he : r.errors = []) : Good env ds r :=
  ⟨StInv.loop h, LifeInv.loop h, not_reopened_loop h he⟩

theorem usable_isOpen {pre : List Raw.Directive} {a c : Str} (h : usable pre a c = true) : IsOpen pre a := by
  unfold usable at h
  cases hl : life pre a with
  | opn o => exact ⟨o, hl⟩
  | never => simp [hl] at h
  | closed o => simp [hl] at h

theorem isOpen_isOpen {pre : List Raw.Directive} {a : Str} (h : isOpen pre a = true) : IsOpen pre a := by
  unfold isOpen at h
  cases hl : life pre a with
  | opn o => exact ⟨o, hl⟩
  | never => simp [hl] at h
  | closed o => simp [hl] at h

theorem mem_zip_right {α β : Type} {as : List α} {bs : List β} (hlen : as.length = bs.length) {b : β} (hb : b ∈ bs) :
    ∃ a, (a, b) ∈ as.zip bs := by
  obtain ⟨j, hj, rfl⟩ := List.getElem_of_mem hb
  have hjz : j < (as.zip bs).length := by simp; omega
  have := List.getElem_mem hjz
  rw [List.getElem_zip] at this
  exact ⟨_, this⟩

/-- C09, but for pad sources: a directive of an accepted ledger refers to open accounts only. -/
theorem C09_only_open_accounts_partial (L : BookLib) (hL : L.Lawful) (order : AMap Str (Account L) → AMap Str (Account L))
    (hf : ∀ m, (order m).Perm m) (o : BookOptions) (ds : List Raw.Directive) (out : List Booked.Directive)
    (w : List IndexedReport) (h : book L order o ds = .success out w)
    (pre : List Raw.Directive) (d : Raw.Directive) (post : List Raw.Directive) (hds : ds = pre ++ d :: post) :
    (∀ t, d.variant = .transaction t → ∀ p ∈ t.postings, OpenBefore pre p.acc) ∧
    (∀ b, d.variant = .balance b → OpenBefore pre b.acc) ∧
    (∀ p, d.variant = .pad p → OpenBefore pre p.acc) ∧
    (∀ c, d.variant = .close c → OpenBefore pre c.acc) := by
  have hacc := (accepted_iff hL hf o ds).1 ⟨out, w, h⟩
  obtain ⟨s, hrun, -⟩ := hacc
  subst hds
  -- the reference semantics accepts the directive after those before it
  have key : ∀ (pre0 pre : List Raw.Directive) (s0 : Ref L),
      Ref.run o.bookingMethod o.tolerance pre0 s0 (pre ++ d :: post) = some s →
      ∃ s1 s2 : Ref L, Ref.step o.bookingMethod o.tolerance (pre0 ++ pre) s1 d = some s2 := by
    intro pre0 pre
    induction pre generalizing pre0 with
    | nil =>
      intro s0 h
      simp only [List.nil_append, Ref.run] at h
      cases hst : s0.step o.bookingMethod o.tolerance pre0 d with
      | none => simp [hst] at h
      | some s2 => exact ⟨s0, s2, by simpa using hst⟩
    | cons x pre ih =>
      intro s0 h
      simp only [List.cons_append, Ref.run] at h
      cases hst : s0.step o.bookingMethod o.tolerance pre0 x with
      | none => simp [hst] at h
      | some s2 =>
        simp only [hst] at h
        obtain ⟨s1, s3, h1⟩ := ih (pre0 ++ [x]) s2 h
        exact ⟨s1, s3, by simpa using h1⟩
  obtain ⟨s1, s2, hst⟩ := key [] pre _ hrun
  rw [List.nil_append] at hst
  refine ⟨?_, ?_, ?_, ?_⟩
  · intro t hv p hp
    simp only [Ref.step, hv] at hst
    split at hst
    · cases hst
    · rename_i q hb
      split at hst
      · rename_i hall
        rw [List.all_eq_true] at hall
        obtain ⟨i, hi⟩ := mem_zip_right (hL.book_length _ _ _ _ _ _ hb) hp
        exact openBefore_of_isOpen (usable_isOpen (hall _ hi))
      · cases hst
  · intro b hv
    simp only [Ref.step, hv] at hst
    split at hst
    · rename_i hu; exact openBefore_of_isOpen (usable_isOpen hu)
    · cases hst
  · intro p hv
    simp only [Ref.step, hv] at hst
    split at hst
    · rename_i hu; exact openBefore_of_isOpen (isOpen_isOpen hu.1)
    · cases hst
  · intro c hv
    simp only [Ref.step, hv] at hst
    split at hst
    · rename_i hu; exact openBefore_of_isOpen (isOpen_isOpen hu)
    · cases hst

/-- C09 does not extend to the source of a pad: a closed source is accepted and posted to. -/
theorem C09_pad_source_not_checked : ∃ ds out w, book Toy.lib id {} ds = .success out w ∧
    ¬ OpenBefore ds Ex.equity ∧ ∃ pre d post p, ds = pre ++ d :: post ∧ d.variant = .pad p ∧ p.source = Ex.equity ∧
      ¬ OpenBefore pre p.source := by
  have hno : ∀ m : List Raw.Directive, ¬ OpenBefore ([Toy.mkOpen 1 Ex.bank, Toy.mkOpen 1 Ex.equity, Toy.mkClose 2 Ex.equity] ++ m)
      Ex.equity ∨ ∃ d ∈ m, ∃ o, d.variant = .opn o := by
    intro m
    by_cases hm : ∃ d ∈ m, ∃ o, d.variant = .opn o
    · exact Or.inr hm
    · left
      rintro ⟨l, d, m', o, h, hv, hacc, hc⟩
      match l, h with
      | [], h =>
        simp only [List.cons_append, List.nil_append, List.cons.injEq] at h
        rw [← h.1] at hv
        simp only [Toy.mkOpen, Raw.Variant.opn.injEq] at hv
        subst hv
        revert hacc; decide
      | [_], h =>
        simp only [List.cons_append, List.nil_append, List.cons.injEq] at h
        exact hc (Toy.mkClose 2 Ex.equity) (by rw [← h.2.2]; simp) _ rfl rfl
      | [_, _], h =>
        simp only [List.cons_append, List.nil_append, List.cons.injEq] at h
        rw [← h.2.2.1] at hv
        simp [Toy.mkClose] at hv
      | _ :: _ :: _ :: l, h =>
        simp only [List.cons_append, List.nil_append, List.cons.injEq] at h
        exact hm ⟨d, by rw [h.2.2.2]; simp, o, hv⟩
  refine ⟨[Toy.mkOpen 1 Ex.bank, Toy.mkOpen 1 Ex.equity, Toy.mkClose 2 Ex.equity] ++
      [Toy.mkPad 3 Ex.bank Ex.equity, Toy.mkBal 4 Ex.bank ⟨100, 0⟩ Ex.nzd],
    match Toy.run ([Toy.mkOpen 1 Ex.bank, Toy.mkOpen 1 Ex.equity, Toy.mkClose 2 Ex.equity] ++
      [Toy.mkPad 3 Ex.bank Ex.equity, Toy.mkBal 4 Ex.bank ⟨100, 0⟩ Ex.nzd]) with | .success ds _ => ds | _ => [], [],
    by decide +kernel, ?_, [Toy.mkOpen 1 Ex.bank, Toy.mkOpen 1 Ex.equity, Toy.mkClose 2 Ex.equity],
    Toy.mkPad 3 Ex.bank Ex.equity, [Toy.mkBal 4 Ex.bank ⟨100, 0⟩ Ex.nzd], _, rfl, rfl, rfl, ?_⟩
  · rcases hno [Toy.mkPad 3 Ex.bank Ex.equity, Toy.mkBal 4 Ex.bank ⟨100, 0⟩ Ex.nzd] with h | ⟨d, hd, o, ho⟩
    · exact h
    · simp only [List.mem_cons, List.not_mem_nil, or_false] at hd
      rcases hd with rfl | rfl <;> simp [Toy.mkPad, Toy.mkBal] at ho
  · rcases hno [] with h | ⟨d, hd, _⟩
    · exact h
    · simp at hd

/-- A case: the posting on Assets:Bank:Current in the example ledger. -/
example : OpenBefore (Ex.ledger.take 7) Ex.current := by
  have := (C09_only_open_accounts_partial Toy.lib Toy.lib_lawful id Ex.fair_id {} Ex.ledger _ _ Ex.ledger_ok (Ex.ledger.take 7)
    Ex.lunch (Ex.ledger.drop 8) rfl).1 _ rfl
  exact this _ (List.mem_cons_self)

end Limabean
