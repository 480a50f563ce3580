/-
The maps of opened and closed accounts against the history of directives.
-/
import Verif.Proofs.Image

namespace Limabean

open Spec

variable {L : BookLib}

theorem life_snoc (pre : List Raw.Directive) (raw : Raw.Directive) (a : Str) :
    life (pre ++ [raw]) a = (life pre a).next a raw.variant := by
  simp [life]

theorem Spec.Life.next_ne_never {a : Str} {l : Life} {v : Raw.Variant} (h : l ≠ .never) : l.next a v ≠ .never := by
  cases l with
  | never => exact absurd rfl h
  | opn o =>
    cases v with
    | close c => by_cases hca : c.acc = a <;> simp [Life.next, hca]
    | _ => simp [Life.next]
  | closed o => cases v <;> simp [Life.next]

/-- The account was made from an open directive. -/
structure Fits (env : Env L) (o : Raw.Open) (x : Account L) : Prop where
  allowed : x.allowed = o.currencies.getD []
  booking : x.booking = if L.supported (o.booking.getD env.defaultBooking) then o.booking.getD env.defaultBooking
    else L.dflt

/-- The state of accounts agrees with the history. -/
structure LifeInv (env : Env L) (pre : List Raw.Directive) (st : State L) : Prop where
  never : ∀ a, life pre a = .never → st.opened.get a = none ∧ st.closed.get a = none ∧ st.accounts.get a = none
  opn : ∀ a o, life pre a = .opn o → o.acc = a ∧ (∃ e, st.opened.get a = some e) ∧ st.closed.get a = none ∧
    ∃ x, st.accounts.get a = some x ∧ Fits env o x
  closed : ∀ a o, life pre a = .closed o → o.acc = a ∧ (∃ e, st.closed.get a = some e) ∧
    ∃ x, st.accounts.get a = some x ∧ Fits env o x
  reopened : ∀ a o, life pre a = .closed o → ((∃ e, st.opened.get a = some e) ↔ Reopened pre a)

theorem LifeInv.init (env : Env L) : LifeInv env [] ({} : State L) where
  never := by simp
  opn := by intro a o h; simp [life] at h
  closed := by intro a o h; simp [life] at h
  reopened := by intro a o h; simp [life] at h

/-- The accounts of two states were made from the same open directives. -/
structure SameOpen (st st' : State L) : Prop where
  opened : st'.opened = st.opened
  closed : st'.closed = st.closed
  some_ : ∀ k a, st.accounts.get k = some a → ∃ a', st'.accounts.get k = some a' ∧ a'.allowed = a.allowed ∧
    a'.booking = a.booking
  none_ : ∀ k, st.accounts.get k = none → st'.accounts.get k = none

theorem SameOpen.refl (st : State L) : SameOpen st st := ⟨rfl, rfl, fun _ a h => ⟨a, h, rfl, rfl⟩, fun _ h => h⟩

theorem SameOpen.trans {a b c : State L} (h : SameOpen a b) (h' : SameOpen b c) : SameOpen a c := by
  refine ⟨h'.1.trans h.1, h'.2.trans h.2, ?_, fun k hk => h'.4 k (h.4 k hk)⟩
  intro k x hx
  obtain ⟨y, hy, hy1, hy2⟩ := h.3 k x hx
  obtain ⟨z, hz, hz1, hz2⟩ := h'.3 k y hy
  exact ⟨z, hz, hz1.trans hy1, hz2.trans hy2⟩

theorem SameMeta.sameOpen {st st' : State L} (h : SameMeta st st') : SameOpen st st' := by
  refine ⟨h.opened, h.closed, ?_, ?_⟩
  · intro k a ha
    obtain ⟨a', ha', hs⟩ := h.forward ha
    exact ⟨a', ha', hs.allowed, hs.booking⟩
  · intro k hk
    rw [AMap.get_eq_none_iff] at hk ⊢
    rw [h.keys]; exact hk

theorem SameOpen.setAccount {st : State L} {k : Str} {a a' : Account L} (ha : st.accounts.get k = some a)
    (h1 : a'.allowed = a.allowed) (h2 : a'.booking = a.booking) : SameOpen st (st.setAccount k a') := by
  refine ⟨rfl, rfl, ?_, ?_⟩
  · intro j b hb
    by_cases hj : k = j
    · subst hj
      rw [ha] at hb; cases hb
      exact ⟨a', by simp [State.setAccount, AMap.get_set], h1, h2⟩
    · exact ⟨b, by simpa [State.setAccount, AMap.get_set, hj] using hb, rfl, rfl⟩
  · intro j hj
    have hkj : k ≠ j := by rintro rfl; rw [ha] at hj; cases hj
    simpa [State.setAccount, AMap.get_set, hkj] using hj

/-- A directive which neither opens nor closes. -/
def Quiet (v : Raw.Variant) : Prop := (∀ o, v ≠ .opn o) ∧ (∀ c, v ≠ .close c)

theorem life_quiet {pre : List Raw.Directive} {raw : Raw.Directive} (h : Quiet raw.variant) (a : Str) :
    life (pre ++ [raw]) a = life pre a := by
  rw [life_snoc]
  cases hv : raw.variant with
  | opn o => exact absurd hv (h.1 o)
  | close c => exact absurd hv (h.2 c)
  | _ => cases life pre a <;> rfl

theorem Reopened.snoc_iff {pre : List Raw.Directive} {raw : Raw.Directive} {a : Str} :
    Reopened (pre ++ [raw]) a ↔ Reopened pre a ∨
      (∃ o o', raw.variant = .opn o ∧ o.acc = a ∧ life pre a = .closed o') := by
  constructor
  · rintro ⟨p, d, q, o, h, h1, h2, o', h3⟩
    rcases List.eq_nil_or_concat q with rfl | ⟨q', z, rfl⟩
    · right
      have := List.append_inj' h (by simp)
      obtain ⟨rfl, hr⟩ := this
      simp only [List.cons.injEq, and_true] at hr
      subst hr
      exact ⟨o, o', h1, h2, h3⟩
    · left
      rw [show p ++ d :: q'.concat z = (p ++ d :: q') ++ [z] by simp] at h
      have := List.append_inj' h (by simp)
      exact ⟨p, d, q', o, this.1, h1, h2, o', h3⟩
  · rintro (⟨p, d, q, o, rfl, h1, h2, h3⟩ | ⟨o, o', h1, h2, h3⟩)
    · exact ⟨p, d, q ++ [raw], o, by simp, h1, h2, h3⟩
    · exact ⟨pre, raw, [], o, by simp, h1, h2, o', h3⟩

theorem Reopened.quiet {pre : List Raw.Directive} {raw : Raw.Directive} (h : Quiet raw.variant) {a : Str} :
    Reopened (pre ++ [raw]) a ↔ Reopened pre a := by
  rw [Reopened.snoc_iff]
  constructor
  · rintro (h1 | ⟨o, o', h1, -⟩)
    · exact h1
    · exact absurd h1 (h.1 o)
  · exact Or.inl

theorem LifeInv.quiet {env : Env L} {pre : List Raw.Directive} {st st' : State L} {raw : Raw.Directive}
    (h : LifeInv env pre st) (hq : Quiet raw.variant) (hs : SameOpen st st') : LifeInv env (pre ++ [raw]) st' where
  never := by
    intro a ha
    rw [life_quiet hq] at ha
    obtain ⟨h1, h2, h3⟩ := h.never a ha
    exact ⟨by rw [hs.opened]; exact h1, by rw [hs.closed]; exact h2, hs.none_ a h3⟩
  opn := by
    intro a o ha
    rw [life_quiet hq] at ha
    obtain ⟨h0, h1, h2, x, hx, hf⟩ := h.opn a o ha
    obtain ⟨y, hy, hy1, hy2⟩ := hs.some_ a x hx
    exact ⟨h0, by rw [hs.opened]; exact h1, by rw [hs.closed]; exact h2, y, hy, ⟨hy1.trans hf.1, hy2.trans hf.2⟩⟩
  closed := by
    intro a o ha
    rw [life_quiet hq] at ha
    obtain ⟨h0, h1, x, hx, hf⟩ := h.closed a o ha
    obtain ⟨y, hy, hy1, hy2⟩ := hs.some_ a x hx
    exact ⟨h0, by rw [hs.closed]; exact h1, y, hy, ⟨hy1.trans hf.1, hy2.trans hf.2⟩⟩
  reopened := by
    intro a o ha
    rw [life_quiet hq] at ha
    rw [hs.opened, Reopened.quiet hq]
    exact h.reopened a o ha

theorem State.balance_sameOpen {env : Env L} {st st' : State L} {b : Raw.Balance} {e : ElementIdx}
    {bk bk' : List Booked.Directive} {v : Booked.Variant} (h : st.balance env b e bk = .ok st' (v, bk')) :
    SameOpen st st' := by
  obtain ⟨a, ho, ha, hc, hcase⟩ := State.balance_ok h
  rcases hcase with ⟨-, rfl, -, -⟩ | ⟨m, -, -, rfl, -, -⟩ | ⟨m, i, e0, -, -, hf⟩
  · exact SameOpen.setAccount ha rfl rfl
  · exact SameOpen.setAccount ha rfl rfl
  · obtain ⟨d, p, d2, t, src, h1, h2, h3, h4, -, h6, rfl, -⟩ := State.fillPad_ok hf
    have h1 : SameOpen st (st.resetTo b a m bk.length) := SameOpen.setAccount ha rfl rfl
    exact h1.trans (SameOpen.setAccount h6 rfl rfl)

theorem get_none_of_has {K V : Type} [DecidableEq K] {m : AMap K V} {k : K} :
    (¬ ∃ e, m.get k = some e) ↔ m.get k = none := by
  cases m.get k <;> simp

theorem LifeInv.openStep {env : Env L} {pre : List Raw.Directive} {st st' : State L} {raw : Raw.Directive}
    {o : Raw.Open} (hi : StInv pre.length bk st) (h : LifeInv env pre st) (hv : raw.variant = .opn o)
    (hs : (∃ v, st.opn env o { directive := pre.length } = .ok st' v) ∨
      ∃ x, st.opn env o { directive := pre.length } = .err st' x) : LifeInv env (pre ++ [raw]) st' := by
  have hother : ∀ a, o.acc ≠ a → life (pre ++ [raw]) a = life pre a := by
    intro a ha
    rw [life_snoc, hv]
    cases life pre a <;> simp [Life.next, ha]
  have hreop : ∀ a, o.acc ≠ a → (Reopened (pre ++ [raw]) a ↔ Reopened pre a) := by
    intro a ha
    rw [Reopened.snoc_iff]
    constructor
    · rintro (h1 | ⟨o1, o', h1, h2, -⟩)
      · exact h1
      · rw [hv] at h1; cases h1; exact absurd h2 ha
    · exact Or.inl
  rcases hs with ⟨v, hs⟩ | ⟨x, hs⟩
  · obtain ⟨h1, h2, -, h3, h4, h5⟩ := State.opn_ok hs
    have hnever : life pre o.acc = .never := by
      cases hl : life pre o.acc with
      | never => rfl
      | opn o' => obtain ⟨e, he⟩ := (h.opn _ _ hl).2.1; simp [h1] at he
      | closed o' => obtain ⟨e, he⟩ := (h.closed _ _ hl).2.1; simp [h2] at he
    have hself : life (pre ++ [raw]) o.acc = .opn o := by
      rw [life_snoc, hv, hnever]; simp [Life.next]
    refine ⟨?_, ?_, ?_, ?_⟩
    · intro a ha
      by_cases hoa : o.acc = a
      · subst hoa; rw [hself] at ha; cases ha
      · rw [hother a hoa] at ha
        rw [h3, h4, h5]
        simp only [AMap.get_set, hoa, if_false]
        exact h.never a ha
    · intro a o' ha
      by_cases hoa : o.acc = a
      · subst hoa; rw [hself] at ha; cases ha
        rw [h3, h4, h5]
        simp only [AMap.get_set, if_true, Option.some.injEq, exists_eq', exists_eq_left', true_and]
        exact ⟨h2, ⟨rfl, rfl⟩⟩
      · rw [hother a hoa] at ha
        rw [h3, h4, h5]
        simp only [AMap.get_set, hoa, if_false]
        exact h.opn a o' ha
    · intro a o' ha
      by_cases hoa : o.acc = a
      · subst hoa; rw [hself] at ha; cases ha
      · rw [hother a hoa] at ha
        rw [h4, h5]
        simp only [AMap.get_set, hoa, if_false]
        exact h.closed a o' ha
    · intro a o' ha
      by_cases hoa : o.acc = a
      · subst hoa; rw [hself] at ha; cases ha
      · rw [hother a hoa] at ha
        rw [h3, hreop a hoa]
        simp only [AMap.get_set, hoa, if_false]
        exact h.reopened a o' ha
  · rcases State.opn_err hs with ⟨p, h1, rfl, -⟩ | ⟨c, h1, h2, rfl, -⟩
    · -- already opened
      have hsame : life (pre ++ [raw]) o.acc = life pre o.acc := by
        rw [life_snoc, hv]
        cases hl : life pre o.acc with
        | never => have := (h.never _ hl).1; simp [h1] at this
        | opn o' => rfl
        | closed o' => rfl
      have hall : ∀ a, life (pre ++ [raw]) a = life pre a := by
        intro a
        by_cases hoa : o.acc = a
        · subst hoa; exact hsame
        · exact hother a hoa
      refine ⟨?_, ?_, ?_, ?_⟩
      · intro a ha; exact h.never a (by rw [← hall]; exact ha)
      · intro a o' ha; exact h.opn a o' (by rw [← hall]; exact ha)
      · intro a o' ha; exact h.closed a o' (by rw [← hall]; exact ha)
      · intro a o' ha
        rw [hall] at ha
        by_cases hoa : o.acc = a
        · subst hoa
          rw [Reopened.snoc_iff, ← h.reopened _ _ ha]
          simp [h1]
        · rw [hreop a hoa]; exact h.reopened a o' ha
    · -- was closed
      obtain ⟨oc, hclosed⟩ : ∃ oc, life pre o.acc = .closed oc := by
        cases hl : life pre o.acc with
        | never => have := (h.never _ hl).2.1; simp [h2] at this
        | opn o' => have := (h.opn _ _ hl).2.2.1; simp [h2] at this
        | closed o' => exact ⟨o', rfl⟩
      have hsame : life (pre ++ [raw]) o.acc = life pre o.acc := by
        rw [life_snoc, hv, hclosed]; rfl
      have hall : ∀ a, life (pre ++ [raw]) a = life pre a := by
        intro a
        by_cases hoa : o.acc = a
        · subst hoa; exact hsame
        · exact hother a hoa
      refine ⟨?_, ?_, ?_, ?_⟩
      · intro a ha
        rw [hall] at ha
        have hoa : o.acc ≠ a := by rintro rfl; rw [hclosed] at ha; cases ha
        simp only [AMap.get_set, hoa, if_false]
        exact h.never a ha
      · intro a o' ha
        rw [hall] at ha
        have hoa : o.acc ≠ a := by rintro rfl; rw [hclosed] at ha; cases ha
        simp only [AMap.get_set, hoa, if_false]
        exact h.opn a o' ha
      · intro a o' ha
        rw [hall] at ha
        exact h.closed a o' ha
      · intro a o' ha
        rw [hall] at ha
        by_cases hoa : o.acc = a
        · subst hoa
          rw [Reopened.snoc_iff]
          simp only [AMap.get_set, if_true, Option.some.injEq, exists_eq', true_iff]
          right
          exact ⟨o, o', hv, rfl, ha⟩
        · rw [hreop a hoa]
          simp only [AMap.get_set, hoa, if_false]
          exact h.reopened a o' ha

theorem LifeInv.closeStep {env : Env L} {pre : List Raw.Directive} {st st' : State L} {raw : Raw.Directive}
    {c : Raw.Close} (hi : StInv pre.length bk st) (h : LifeInv env pre st) (hv : raw.variant = .close c)
    (hs : (∃ v, st.close c { directive := pre.length } = .ok st' v) ∨
      ∃ x, st.close c { directive := pre.length } = .err st' x) : LifeInv env (pre ++ [raw]) st' := by
  have hother : ∀ a, c.acc ≠ a → life (pre ++ [raw]) a = life pre a := by
    intro a ha
    rw [life_snoc, hv]
    cases life pre a <;> simp [Life.next, ha]
  have hreop : ∀ a, (Reopened (pre ++ [raw]) a ↔ Reopened pre a) := by
    intro a
    rw [Reopened.snoc_iff]
    constructor
    · rintro (h1 | ⟨o1, o', h1, -⟩)
      · exact h1
      · rw [hv] at h1; cases h1
    · exact Or.inl
  rcases hs with ⟨v, hs⟩ | ⟨x, hs⟩
  · obtain ⟨⟨p, h1⟩, h2, -, rfl⟩ := State.close_ok hs
    obtain ⟨o, hopn⟩ : ∃ o, life pre c.acc = .opn o := by
      cases hl : life pre c.acc with
      | never => have := (h.never _ hl).1; simp [h1] at this
      | opn o => exact ⟨o, rfl⟩
      | closed o => obtain ⟨e, he⟩ := (h.closed _ _ hl).2.1; simp [h2] at he
    have hself : life (pre ++ [raw]) c.acc = .closed o := by
      rw [life_snoc, hv, hopn]; simp [Life.next]
    refine ⟨?_, ?_, ?_, ?_⟩
    · intro a ha
      have hca : c.acc ≠ a := by rintro rfl; rw [hself] at ha; cases ha
      rw [hother a hca] at ha
      simp only [AMap.get_set, AMap.get_del hi.wfO, hca, if_false]
      exact h.never a ha
    · intro a o' ha
      have hca : c.acc ≠ a := by rintro rfl; rw [hself] at ha; cases ha
      rw [hother a hca] at ha
      simp only [AMap.get_set, AMap.get_del hi.wfO, hca, if_false]
      exact h.opn a o' ha
    · intro a o' ha
      by_cases hca : c.acc = a
      · subst hca
        rw [hself] at ha; cases ha
        simp only [AMap.get_set, if_true, Option.some.injEq, exists_eq', true_and]
        exact ⟨(h.opn _ _ hopn).1, (h.opn _ _ hopn).2.2.2⟩
      · rw [hother a hca] at ha
        simp only [AMap.get_set, hca, if_false]
        exact h.closed a o' ha
    · intro a o' ha
      rw [hreop]
      by_cases hca : c.acc = a
      · subst hca
        simp only [AMap.get_del hi.wfO, if_true, reduceCtorEq, exists_false, false_iff]
        rintro ⟨p, d, q, o1, hpre, hd, hacc, o2, hl⟩
        have : ∀ q : List Raw.Directive, ∀ l : Life, (∃ o, l = .closed o) →
            ∃ o, q.foldl (fun l d => l.next c.acc d.variant) l = .closed o := by
          intro q
          induction q with
          | nil => intro l hl; simpa using hl
          | cons d q ih =>
            rintro l ⟨o, rfl⟩
            exact ih _ ⟨o, by cases d.variant <;> rfl⟩
        obtain ⟨o3, ho3⟩ := this (d :: q) (life p c.acc) ⟨o2, hl⟩
        rw [hpre] at hopn
        unfold life at hopn ho3
        rw [List.foldl_append, ho3] at hopn
        cases hopn
      · rw [hother a hca] at ha
        simp only [AMap.get_del hi.wfO, hca, if_false]
        exact h.reopened a o' ha
  · obtain ⟨rfl, hcase⟩ := State.close_err hs
    have hsame : life (pre ++ [raw]) c.acc = life pre c.acc := by
      rw [life_snoc, hv]
      cases hl : life pre c.acc with
      | never => rfl
      | closed o => rfl
      | opn o =>
        obtain ⟨-, ⟨e, he⟩, h3, -⟩ := h.opn _ _ hl
        rcases hcase with ⟨h1, -⟩ | ⟨p, q, h1, h2, -⟩
        · simp [h1] at he
        · simp [h2] at h3
    have hall : ∀ a, life (pre ++ [raw]) a = life pre a := by
      intro a
      by_cases hoa : c.acc = a
      · subst hoa; exact hsame
      · exact hother a hoa
    refine ⟨?_, ?_, ?_, ?_⟩
    · intro a ha; exact h.never a (by rw [← hall]; exact ha)
    · intro a o' ha; exact h.opn a o' (by rw [← hall]; exact ha)
    · intro a o' ha; exact h.closed a o' (by rw [← hall]; exact ha)
    · intro a o' ha
      rw [hreop]
      exact h.reopened a o' (by rw [← hall]; exact ha)

theorem plainVariant_quiet {w : Raw.Variant} {v : Booked.Variant} (h : plainVariant w = some v) : Quiet w := by
  cases w <;> simp [plainVariant] at h <;> exact ⟨by simp, by simp⟩

/-- The lifecycle invariant holds after every step. -/
theorem LifeInv.step {env : Env L} {pre : List Raw.Directive} {raw : Raw.Directive} {r r' : Run L}
    (hi : StInv pre.length r.booked r.st) (h : LifeInv env pre r.st) (hs : r.step env pre.length raw = some r') :
    LifeInv env (pre ++ [raw]) r'.st := by
  rcases Run.step_some hs with ⟨st', x, hd, rfl⟩ | ⟨st', v, v2, bk, errs, hd, -, rfl⟩
  · rcases State.directive_err hd with ⟨t, hv, ht⟩ | ⟨b, hv, hb⟩ | ⟨o, hv, ho⟩ | ⟨c, hv, hc⟩ | ⟨p, hv, hp⟩
    · have hq : Quiet raw.variant := by rw [hv]; exact ⟨by simp, by simp⟩
      refine h.quiet hq ?_
      rcases State.transaction_err ht with ⟨rfl, -⟩ | ⟨rfl, -⟩ | ⟨q, -, ⟨rfl, -⟩ | ⟨-, hi⟩⟩
      · exact .refl _
      · exact .refl _
      · exact .refl _
      · exact (State.installInventory_sameMeta (Or.inr ⟨_, hi⟩)).sameOpen
    · have hq : Quiet raw.variant := by rw [hv]; exact ⟨by simp, by simp⟩
      refine h.quiet hq ?_
      rw [(State.balance_err hb).1]
      exact .refl _
    · exact LifeInv.openStep hi h hv (Or.inr ⟨_, ho⟩)
    · exact LifeInv.closeStep hi h hv (Or.inr ⟨_, hc⟩)
    · have hq : Quiet raw.variant := by rw [hv]; exact ⟨by simp, by simp⟩
      refine h.quiet hq ?_
      rcases State.pad_err hp with ⟨rfl, -⟩ | ⟨a, j, u, -, ha, -, rfl, -⟩
      · exact .refl _
      · exact SameOpen.setAccount ha rfl rfl
  · rcases State.directive_ok hd with ⟨t, hv, ht, rfl, rfl⟩ | ⟨b, hv, hb, rfl⟩ | ⟨o, hv, ho, rfl, rfl⟩ |
      ⟨cl, hv, hc, rfl, rfl⟩ | ⟨p, v', hv, hp, rfl, rfl⟩ | ⟨hpl, rfl, rfl, rfl⟩
    · have hq : Quiet raw.variant := by rw [hv]; exact ⟨by simp, by simp⟩
      obtain ⟨q, -, -, hi, -⟩ := State.transaction_ok ht
      exact h.quiet hq (State.installInventory_sameMeta (Or.inl hi)).sameOpen
    · have hq : Quiet raw.variant := by rw [hv]; exact ⟨by simp, by simp⟩
      exact h.quiet hq (State.balance_sameOpen hb)
    · exact LifeInv.openStep hi h hv (Or.inl ⟨_, ho⟩)
    · exact LifeInv.closeStep hi h hv (Or.inl ⟨_, hc⟩)
    · have hq : Quiet raw.variant := by rw [hv]; exact ⟨by simp, by simp⟩
      obtain ⟨a, -, ha, -, rfl, -, -⟩ := State.pad_ok hp
      exact h.quiet hq (SameOpen.setAccount ha rfl rfl)
    · exact h.quiet (plainVariant_quiet hpl) (.refl _)

theorem LifeInv.loop {env : Env L} {ds : List Raw.Directive} {r : Run L} (h : Run.loop env 0 ds {} = some r) :
    LifeInv env ds r.st := by
  have := Run.loop_induction env (fun pre r => StInv pre.length r.booked r.st ∧ LifeInv env pre r.st)
    ⟨StInv.init, LifeInv.init env⟩ (by
      intro pre raw r r' hp hs
      exact ⟨by simpa using hp.1.step hs, LifeInv.step hp.1 hp.2 hs⟩) h
  exact this.2

/-- When an account is open in the state. -/
theorem LifeInv.opened_iff {env : Env L} {pre : List Raw.Directive} {st : State L} (h : LifeInv env pre st) (a : Str) :
    st.opened.has a = true ↔ IsOpen pre a ∨ Reopened pre a := by
  unfold AMap.has
  rw [Option.isSome_iff_exists]
  cases hl : life pre a with
  | never =>
    have h1 := (h.never a hl).1
    simp only [h1, reduceCtorEq, exists_false, IsOpen, hl, false_or, false_iff]
    rintro ⟨p, d, q, o, hpre, hd, hacc, o', hl'⟩
    have : ∀ q : List Raw.Directive, ∀ l : Life, l ≠ .never →
        q.foldl (fun l d => l.next a d.variant) l ≠ .never := by
      intro q
      induction q with
      | nil => intro l hl; simpa using hl
      | cons d q ih =>
        intro l hl
        apply ih
        exact Life.next_ne_never hl
    rw [hpre] at hl
    unfold life at hl hl'
    rw [List.foldl_append, hl'] at hl
    exact this _ _ (by simp) hl
  | opn o =>
    have h1 := (h.opn a o hl).2.1
    simp [h1, IsOpen, hl]
  | closed o =>
    rw [h.reopened a o hl]
    simp [IsOpen, hl]

/-- Without reports there was no attempt to reopen. -/
theorem not_reopened_loop {env : Env L} {ds : List Raw.Directive} {r : Run L} (h : Run.loop env 0 ds {} = some r)
    (he : r.errors = []) (a : Str) : ¬ Reopened ds a := by
  have := Run.loop_induction env (fun pre r => (StInv pre.length r.booked r.st ∧ LifeInv env pre r.st) ∧
    (r.errors = [] → ∀ a, ¬ Reopened pre a))
    ⟨⟨StInv.init, LifeInv.init env⟩, by
      intro _ a
      rintro ⟨p, d, q, o, hpre, -⟩
      simp at hpre⟩ (by
      intro pre raw r r' hp hs
      refine ⟨⟨by simpa using hp.1.1.step hs, LifeInv.step hp.1.1 hp.1.2 hs⟩, ?_⟩
      intro he a
      obtain ⟨h0, st', v, v2, bk, hd, -, rfl⟩ := errors_nil_of_step hs he
      rw [Reopened.snoc_iff]
      rintro (h1 | ⟨o, o', hv, rfl, hl⟩)
      · exact hp.2 h0 a h1
      · unfold State.directive at hd
        simp only [hv] at hd
        cases ho : r.st.opn env o { directive := pre.length } with
        | panic => simp [ho, Res.plain] at hd
        | err s x => simp [ho, Res.plain] at hd
        | ok s v =>
          obtain ⟨-, h2, -⟩ := State.opn_ok ho
          obtain ⟨-, ⟨e, he⟩, -⟩ := hp.1.2.closed _ _ hl
          simp [h2] at he) h
  exact this.2 he a

end Limabean
