/-
C10: currency restrictions.

Not true of the source of a pad, whose currencies are not checked: `C10_pad_source_not_checked`.
`C10_permitted_partial` covers all other postings of the returned ledger.
-/
import Verif.Props.C09
import Verif.Proofs.Pads

namespace Limabean

open Spec

/-- The full statement of C10. -/
def CurrenciesPermitted (ds : List Raw.Directive) (out : List Booked.Directive) : Prop :=
  ∀ d ∈ out, ∀ q ∈ postingsOf d, Permits ds q.acc q.cur

variable {L : BookLib}

theorem permits_snoc {pre : List Raw.Directive} {raw : Raw.Directive} {a c : Str} (hn : life pre a ≠ .never)
    (h : Permits pre a c) : Permits (pre ++ [raw]) a c := by
  intro o ho
  apply h
  rw [life_snoc] at ho
  cases hl : life pre a with
  | never => exact absurd hl hn
  | opn o' =>
    rw [hl] at ho
    have : o' = o := by
      cases hv : raw.variant with
      | close cl =>
        rw [hv] at ho
        by_cases hca : cl.acc = a
        · simpa [Life.next, hca] using ho
        · simpa [Life.next, hca] using ho
      | _ => rw [hv] at ho; simpa [Life.next] using ho
    left; rw [this]
  | closed o' =>
    rw [hl] at ho
    have : o' = o := by
      cases hv : raw.variant <;> rw [hv] at ho <;> simpa [Life.next] using ho
    right; rw [this]

theorem usable_permits {pre : List Raw.Directive} {a c : Str} (h : usable pre a c = true) : Permits pre a c := by
  unfold usable at h
  intro o ho
  cases hl : life pre a with
  | opn o' =>
    rw [hl] at ho
    simp only [Life.opn.injEq, reduceCtorEq, or_false] at ho
    subst ho
    simp only [hl, Bool.or_eq_true, List.isEmpty_iff, List.contains_eq_mem, decide_eq_true_eq] at h
    exact h
  | never => simp [hl] at h
  | closed o' => simp [hl] at h

theorem mem_bookedPostings {i : Nat} {zs : List (Interpolated × Raw.PostingSpec)} {q : Booked.Posting}
    (h : q ∈ bookedPostings i zs) : ∃ ip p, (ip, p) ∈ zs ∧ q.acc = p.acc ∧ q.cur = ip.currency := by
  induction zs generalizing i with
  | nil => simp [bookedPostings] at h
  | cons z zs ih =>
    obtain ⟨ip, p⟩ := z
    simp only [bookedPostings, List.mem_append] at h
    rcases h with h | h
    · refine ⟨ip, p, by simp, ?_⟩
      unfold bookedPostingsOf at h
      split at h
      · simp only [List.mem_map] at h
        obtain ⟨l, -, rfl⟩ := h
        exact ⟨rfl, rfl⟩
      · simp only [List.mem_singleton] at h
        subst h
        exact ⟨rfl, rfl⟩
    · obtain ⟨ip', p', h1, h2⟩ := ih h
      exact ⟨ip', p', List.mem_cons_of_mem _ h1, h2⟩

/-- The invariant. -/
def PermInv (pre : List Raw.Directive) (r : Run L) : Prop :=
  r.errors = [] → ∀ d ∈ r.booked, ∀ q ∈ postingsOf d,
    (∀ raw p, pre[d.idx]? = some raw → raw.variant = .pad p → q.acc = p.acc) →
    life pre q.acc ≠ .never ∧ Permits pre q.acc q.cur

theorem life_snoc_ne {pre : List Raw.Directive} {raw : Raw.Directive} {a : Str} (h : life pre a ≠ .never) :
    life (pre ++ [raw]) a ≠ .never := by
  rw [life_snoc]; exact Spec.Life.next_ne_never h

theorem isOpen_ne_never {pre : List Raw.Directive} {a : Str} (h : IsOpen pre a) : life pre a ≠ .never := by
  obtain ⟨o, h⟩ := h; rw [h]; simp

theorem PermInv.step {env : Env L} {pre : List Raw.Directive} {raw : Raw.Directive} {r r' : Run L}
    (hg : r.errors = [] → Good env pre r) (hi : StInv pre.length r.booked r.st) (h : PermInv pre r)
    (himg : r.errors = [] → Image 0 pre r.booked)
    (hs : r.step env pre.length raw = some r') : PermInv (pre ++ [raw]) r' := by
  intro he d hd q hq hcond
  obtain ⟨he0, st', v, v2, bk, hdir, hbe, rfl⟩ := errors_nil_of_step hs he
  have hg := hg he0
  have old : ∀ d' ∈ r.booked, d'.idx = d.idx → q ∈ postingsOf d' →
      life (pre ++ [raw]) q.acc ≠ .never ∧ Permits (pre ++ [raw]) q.acc q.cur := by
    intro d' hd' hidx hq'
    have hlt := hi.idxB d' hd'
    have := h he0 d' hd' q hq' (by
      intro raw' p h1 h2
      exact hcond raw' p (by rw [← hidx, List.getElem?_append_left hlt]; exact h1) h2)
    exact ⟨life_snoc_ne this.1, permits_snoc this.1 this.2⟩
  simp only [List.mem_append, List.mem_singleton] at hd
  have nopost : ∀ v', d = mkBooked pre.length raw v' → (∀ t, v' ≠ .transaction t) → False := by
    rintro v' rfl hnt
    unfold postingsOf at hq
    simp only [mkBooked] at hq
    cases v' <;> simp at hq
  rcases State.directive_ok hdir with ⟨t, hv', ht, rfl, rfl⟩ | ⟨b, hv', hbal, rfl⟩ | ⟨op, hv', ho, rfl, rfl⟩ |
      ⟨cl, hv', hc, rfl, rfl⟩ | ⟨p, v', hv', hpad, rfl, rfl⟩ | ⟨hpl, -, rfl, rfl⟩
  · obtain ⟨b, -, hfp, -, rfl⟩ := State.transaction_ok ht
    rcases hd with (hd | rfl) | hd
    · exact old d hd rfl hq
    · rw [hg.firstPostingError] at hfp
      have hq : q ∈ bookedPostings 0 (b.interpolated.zip t.postings) := hq
      obtain ⟨ip, p, hz, h1, h2⟩ := mem_bookedPostings hq
      rw [List.all_eq_true] at hfp
      have hu := hfp _ hz
      simp only at hu
      rw [h1, h2]
      have hne := isOpen_ne_never (usable_isOpen hu)
      exact ⟨life_snoc_ne hne, permits_snoc hne (usable_permits hu)⟩
    · simp at hd
  · obtain ⟨y, hop, hy, hcv, hcase⟩ := State.balance_ok hbal
    have hu : usable pre b.acc b.cur = true := (hg.usable_iff _ _).2 ⟨y, hop, hy, hcv⟩
    have hne := isOpen_ne_never (usable_isOpen hu)
    rcases hcase with ⟨-, rfl, rfl, rfl⟩ | ⟨m, -, hyp, rfl, rfl, rfl⟩ | ⟨m, i, e0, -, hyp, hf⟩
    · rcases hd with (hd | hd) | hd
      · exact old d hd rfl hq
      · exact (nopost _ hd (by simp)).elim
      · simp at hd
    · rcases hd with (hd | hd) | hd
      · exact old d hd rfl hq
      · exact (nopost _ hd (by simp)).elim
      · simp at hd
    · obtain ⟨d1, p, d2, t, src, h1, h2, h3, h4, rfl, h6, rfl, rfl⟩ := State.fillPad_ok hf
      rcases hd with (hd | hd) | hd
      · rcases List.mem_or_eq_of_mem_set hd with hd | hd
        · exact old d hd rfl hq
        · -- the filled transaction
          subst hd
          obtain ⟨f, q', f2, u, g1, g2, g3, g4, g5, g6, g7, g8⟩ := hi.pad _ _ _ _ hy hyp
          rw [h1] at g1; cases g1
          rw [h2] at g2; cases g2
          rw [h3] at g5; cases g5
          -- the raw directive is the pad
          have hraw : ∃ raw', pre[d1.idx]? = some raw' ∧ raw'.variant = .pad p := by
            have := himg he0
            have hmem := List.mem_of_getElem? h1
            have key : ∀ (n : Nat) (rs : List Raw.Directive) (bs : List Booked.Directive), Image n rs bs →
                d1 ∈ bs → n ≤ d1.idx ∧ ∃ raw', rs[d1.idx - n]? = some raw' ∧ raw'.variant = .pad p := by
              intro n rs bs himg
              induction himg with
              | nil => intro h; simp at h
              | @single n raw b rs bs hp henv hc _ ih =>
                intro hm
                rcases List.mem_cons.1 hm with rfl | hm
                · refine ⟨by rw [henv.idx], raw, by simp [henv.idx], ?_⟩
                  rw [h2] at hc
                  revert hc
                  generalize raw.variant = rv
                  intro hc
                  cases hc
                  rfl
                · obtain ⟨hle, raw', k1, k2⟩ := ih hm
                  refine ⟨by omega, raw', ?_, k2⟩
                  rw [show d1.idx - n = (d1.idx - (n+1)) + 1 by omega]
                  simpa using k1
              | @padded n raw b b' rs bs hp henv hc henv' ht _ ih =>
                intro hm
                rcases List.mem_cons.1 hm with rfl | hm
                · refine ⟨by rw [henv.idx], raw, by simp [henv.idx], ?_⟩
                  rw [h2] at hc
                  revert hc
                  generalize raw.variant = rv
                  intro hc
                  cases hc
                  rfl
                · rcases List.mem_cons.1 hm with rfl | hm
                  · obtain ⟨t', ht', -⟩ := ht
                    rw [h2] at ht'; cases ht'
                  · obtain ⟨hle, raw', k1, k2⟩ := ih hm
                    refine ⟨by omega, raw', ?_, k2⟩
                    rw [show d1.idx - n = (d1.idx - (n+1)) + 1 by omega]
                    simpa using k1
            have := (key 0 pre r.booked this hmem).2
            simpa using this
          obtain ⟨raw', k1, k2⟩ := hraw
          have hlt : d1.idx < pre.length := (List.getElem?_eq_some_iff.1 k1).1
          have hqa := hcond raw' p (by
            rw [show (d2.withPostings t (calculateBalancePadPostings b.cur m b.acc p.source)).idx = d2.idx from rfl,
              g8, List.getElem?_append_left hlt]; exact k1) k2
          have hqc : q.cur = b.cur := by
            have hq : q ∈ calculateBalancePadPostings b.cur m b.acc p.source := hq
            unfold calculateBalancePadPostings at hq
            simp only [List.mem_cons, List.not_mem_nil, or_false] at hq
            rcases hq with rfl | rfl <;> rfl
          rw [hqa, hqc, g3]
          exact ⟨life_snoc_ne hne, permits_snoc hne (usable_permits hu)⟩
      · exact (nopost _ hd (by simp)).elim
      · simp at hd
  · obtain ⟨-, -, rfl, -⟩ := State.opn_ok ho
    rcases hd with (hd | hd) | hd
    · exact old d hd rfl hq
    · exact (nopost _ hd (by simp)).elim
    · simp at hd
  · obtain ⟨-, -, rfl, -⟩ := State.close_ok hc
    rcases hd with (hd | hd) | hd
    · exact old d hd rfl hq
    · exact (nopost _ hd (by simp)).elim
    · simp at hd
  · obtain ⟨y, -, hy, hyp, rfl, rfl, rfl⟩ := State.pad_ok hpad
    rcases hd with (hd | hd) | hd
    · exact old d hd rfl hq
    · exact (nopost _ hd (by simp)).elim
    · simp only [Option.map_some, Option.toList_some, List.mem_singleton] at hd
      subst hd
      simp [postingsOf, mkBooked] at hq
  · rcases hd with (hd | hd) | hd
    · exact old d hd rfl hq
    · subst hd
      rw [State.plain_postings hpl] at hq
      simp at hq
    · simp at hd

/-- C10, but for pad sources: each posting of the returned ledger, unless it is on the source of a pad, is in a
currency which its account's opening directive permits. -/
theorem C10_permitted_partial (L : BookLib) (order : AMap Str (Account L) → AMap Str (Account L)) (o : BookOptions)
    (ds : List Raw.Directive) (out : List Booked.Directive) (w : List IndexedReport)
    (h : book L order o ds = .success out w) (d : Booked.Directive) (hd : d ∈ out) (q : Booked.Posting)
    (hq : q ∈ postingsOf d)
    (hpad : ∀ raw p, ds[d.idx]? = some raw → raw.variant = .pad p → q.acc = p.acc) :
    Permits ds q.acc q.cur := by
  obtain ⟨r, hl, he, -, hb, -⟩ := collect_success h
  have := Run.loop_induction (envOf L o order) (fun pre r => Run.loop (envOf L o order) 0 pre {} = some r ∧ PermInv pre r)
    ⟨rfl, by intro _ d h; simp at h⟩ (by
      rintro pre raw r r' ⟨hl, hp⟩ hs
      refine ⟨by rw [Run.loop_snoc]; exact ⟨r, hl, by simpa using hs⟩, ?_⟩
      exact hp.step (fun he => Good.loop hl he) (StInv.loop hl) (fun he => image_loop hl he) hs) hl
  exact (this.2 he d (by rw [hb]; exact hd) q hq hpad).2

/-- C10 fails for the source of a pad: an account restricted to USD receives NZD. -/
theorem C10_pad_source_not_checked :
    ∃ ds out w, book Toy.lib id {} ds = .success out w ∧ ¬ CurrenciesPermitted ds out := by
  refine ⟨[Toy.mkOpen 1 Ex.bank, Toy.mkOpen 1 Ex.equity (some [Ex.usd]), Toy.mkPad 3 Ex.bank Ex.equity,
      Toy.mkBal 4 Ex.bank ⟨100, 0⟩ Ex.nzd],
    match Toy.run [Toy.mkOpen 1 Ex.bank, Toy.mkOpen 1 Ex.equity (some [Ex.usd]), Toy.mkPad 3 Ex.bank Ex.equity,
      Toy.mkBal 4 Ex.bank ⟨100, 0⟩ Ex.nzd] with | .success ds _ => ds | _ => [], [], by decide +kernel, ?_⟩
  intro h
  have hd : ∃ d ∈ (match Toy.run [Toy.mkOpen 1 Ex.bank, Toy.mkOpen 1 Ex.equity (some [Ex.usd]), Toy.mkPad 3 Ex.bank Ex.equity,
      Toy.mkBal 4 Ex.bank ⟨100, 0⟩ Ex.nzd] with | .success ds _ => ds | _ => []), ∃ q ∈ postingsOf d,
      q.acc = Ex.equity ∧ q.cur = Ex.nzd := by decide +kernel
  obtain ⟨d, hd, q, hq, h1, h2⟩ := hd
  have := h d hd q hq { acc := Ex.equity, currencies := some [Ex.usd] } (Or.inl (by rw [h1]; decide +kernel))
  rw [h2] at this
  revert this
  decide

/-- A case: the posting on the restricted account in the example ledger. -/
example : Permits Ex.ledger Ex.current Ex.nzd :=
  C10_permitted_partial Toy.lib id {} Ex.ledger _ _ Ex.ledger_ok (Ex.out[8]'(by decide +kernel)) (by simp)
    ((postingsOf (Ex.out[8]'(by decide +kernel)))[0]'(by decide +kernel)) (by simp) (by
      intro raw p h1 h2
      have : (Ex.ledger[(Ex.out[8]'(by decide +kernel)).idx]?.map fun r => isPad r) = some false := by decide +kernel
      rw [h1] at this
      simp [isPad, h2] at this)

end Limabean
