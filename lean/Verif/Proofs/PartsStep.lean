/-
Booking commutes with leaving out the directives on unrelated accounts: one directive.
-/
import Verif.Proofs.PartsLemmas

namespace Limabean

open Spec

variable {L : BookLib} {M : Str → Bool} {K : Nat → Bool} {N : Str → Prop}

/-- How the accounts change, apart from pads and holdings. -/
theorem State.directive_accounts {env : Env L} {st st' : State L} {raw : Raw.Directive} {e : ElementIdx} {bk : List Booked.Directive}
    (h : (∃ s, st.directive env raw e bk = .ok st' s) ∨ ∃ x, st.directive env raw e bk = .err st' x) (a : Str) (x' : Account L)
    (hx : st'.accounts.get a = some x') :
    (∃ x, st.accounts.get a = some x ∧ x'.window = x.window) ∨
    (∃ o, raw.variant = .opn o ∧ o.acc = a ∧ x'.window = none) ∨
    (∃ b x s, raw.variant = .balance b ∧ b.acc = a ∧ st.accounts.get a = some x ∧ x'.window = (x.advance bk.length).window ∧
      st.directive env raw e bk = .ok st' s) := by
  have same : st' = st → (∃ x, st.accounts.get a = some x ∧ x'.window = x.window) := by
    rintro rfl; exact ⟨x', hx, rfl⟩
  have sameMeta : SameMeta st st' → (∃ x, st.accounts.get a = some x ∧ x'.window = x.window) := by
    intro hm
    obtain ⟨x, h1, h2⟩ := hm.accounts a x' hx
    exact ⟨x, h1, h2.window⟩
  rcases h with ⟨s, h⟩ | ⟨r, h⟩
  · obtain ⟨v, v2, bk'⟩ := s
    rcases State.directive_ok h with ⟨t, hv, ht, -, -⟩ | ⟨b, hv, hb, -⟩ | ⟨o, hv, ho, -, -⟩ | ⟨cl, hv, hc, -, -⟩ |
      ⟨p, v', hv, hp, -, -⟩ | ⟨-, hst, -, -⟩
    · obtain ⟨q, -, -, hi, -⟩ := State.transaction_ok ht
      exact .inl (sameMeta (State.installInventory_sameMeta (Or.inl hi)))
    · obtain ⟨y, -, hy, -, hcase⟩ := State.balance_ok hb
      have key : ∀ z : Account L, st'.accounts.get a = some x' → (st.setAccount b.acc z).accounts.get a = some x' →
          z.window = (y.advance bk.length).window →
          (∃ x, st.accounts.get a = some x ∧ x'.window = x.window) ∨
          (∃ o, raw.variant = .opn o ∧ o.acc = a ∧ x'.window = none) ∨
          (∃ b x s, raw.variant = .balance b ∧ b.acc = a ∧ st.accounts.get a = some x ∧ x'.window = (x.advance bk.length).window ∧
            st.directive env raw e bk = .ok st' s) := by
        intro z _ hz hw
        simp only [State.setAccount, AMap.get_set] at hz
        split at hz
        · rename_i hba
          cases hz
          exact .inr (.inr ⟨b, y, _, hv, hba, by rw [← hba]; exact hy, hw, h⟩)
        · exact .inl ⟨x', hz, rfl⟩
      rcases hcase with ⟨-, hst, -, -⟩ | ⟨m, -, -, hst, -, -⟩ | ⟨m, i, e0, -, -, hf⟩
      · rw [hst] at hx
        exact key _ (by rw [hst]; exact hx) hx rfl
      · rw [hst] at hx
        exact key _ (by rw [hst]; exact hx) hx rfl
      · obtain ⟨d1, p, d2, t, src, -, -, -, -, -, h6, hst, -⟩ := State.fillPad_ok hf
        have hx0 := hx
        rw [hst] at hx
        simp only [State.setAccount, AMap.get_set] at hx
        split at hx
        · rename_i hsa
          cases hx
          rw [hsa] at h6
          unfold State.resetTo at h6
          simp only [State.setAccount, AMap.get_set] at h6
          split at h6
          · rename_i hba
            cases h6
            exact .inr (.inr ⟨b, y, _, hv, hba, by rw [← hba]; exact hy, rfl, h⟩)
          · exact .inl ⟨src, h6, rfl⟩
        · exact key _ hx0 hx rfl
    · obtain ⟨-, -, -, -, -, hac⟩ := State.opn_ok ho
      rw [hac, AMap.get_set] at hx
      split at hx
      · rename_i hoa
        cases hx
        exact .inr (.inl ⟨o, hv, hoa, rfl⟩)
      · exact .inl ⟨x', hx, rfl⟩
    · obtain ⟨-, -, -, rfl⟩ := State.close_ok hc
      exact .inl ⟨x', hx, rfl⟩
    · obtain ⟨y, -, hy, -, rfl, -⟩ := State.pad_ok hp
      simp only [State.setAccount, AMap.get_set] at hx
      split at hx
      · rename_i hpa
        cases hx
        exact .inl ⟨y, by rw [← hpa]; exact hy, rfl⟩
      · exact .inl ⟨x', hx, rfl⟩
    · exact .inl (same hst)
  · rcases State.directive_err h with ⟨t, hv, ht⟩ | ⟨b, hv, hb⟩ | ⟨o, hv, ho⟩ | ⟨cl, hv, hc⟩ | ⟨p, hv, hp⟩
    · rcases State.transaction_err ht with ⟨rfl, -⟩ | ⟨rfl, -⟩ | ⟨q, -, ⟨rfl, -⟩ | ⟨-, hi⟩⟩
      · exact .inl ⟨x', hx, rfl⟩
      · exact .inl ⟨x', hx, rfl⟩
      · exact .inl ⟨x', hx, rfl⟩
      · exact .inl (sameMeta (State.installInventory_sameMeta (Or.inr ⟨_, hi⟩)))
    · exact .inl (same (State.balance_err hb).1)
    · rcases State.opn_err ho with ⟨prev, -, rfl, -⟩ | ⟨closed, -, -, rfl, -⟩
      · exact .inl ⟨x', hx, rfl⟩
      · exact .inl ⟨x', hx, rfl⟩
    · exact .inl (same (State.close_err hc).1)
    · rcases State.pad_err hp with ⟨rfl, -⟩ | ⟨y, j, u, -, hy, -, rfl, -⟩
      · exact .inl ⟨x', hx, rfl⟩
      · simp only [State.setAccount, AMap.get_set] at hx
        split at hx
        · rename_i hpa
          cases hx
          exact .inl ⟨y, by rw [← hpa]; exact hy, rfl⟩
        · exact .inl ⟨x', hx, rfl⟩

theorem bookedPostings_acc {l : List (Interpolated × Raw.PostingSpec)} {n : Nat} {q : Booked.Posting} (h : q ∈ bookedPostings n l) :
    ∃ z ∈ l, q.acc = z.2.acc := by
  induction l generalizing n with
  | nil => simp [bookedPostings] at h
  | cons z l ih =>
    obtain ⟨ip, p⟩ := z
    simp only [bookedPostings, List.mem_append] at h
    rcases h with h | h
    · unfold bookedPostingsOf at h
      split at h
      · simp only [List.mem_map] at h
        obtain ⟨lot, -, rfl⟩ := h
        exact ⟨(ip, p), by simp, rfl⟩
      · simp only [List.mem_singleton] at h
        subst h
        exact ⟨(ip, p), by simp, rfl⟩
    · obtain ⟨z, hz, h⟩ := ih h
      exact ⟨z, by simp [hz], h⟩

/-- What a booked directive uses. -/
structure UsesOnly (M : Str → Bool) (K : Nat → Bool) (N : Str → Prop) (d : Booked.Directive) : Prop where
  pad : ∀ p, d.variant = .pad p → M p.acc = K d.idx ∧ M p.source = K d.idx ∧ N p.acc ∧ N p.source
  moves : ∀ t, d.variant = .transaction t → ∀ p ∈ t.postings, M p.acc = K d.idx ∧ N p.acc

/-- The positions stay, and so do the directives, but for the postings of transactions. -/
structure Refilled (bk bk' : List Booked.Directive) : Prop where
  idx : bk'.map (fun d => d.idx) = bk.map fun d => d.idx
  first : NoAssertionFirst bk → NoAssertionFirst bk'

theorem Refilled.refl (bk : List Booked.Directive) : Refilled bk bk := ⟨rfl, id⟩

theorem Refilled.set {bk : List Booked.Directive} {i : Nat} {d : Booked.Directive} (h : bk[i]? = some d) (t : Booked.Transaction)
    (ps : List Booked.Posting) : Refilled bk (bk.set i (d.withPostings t ps)) := by
  constructor
  · rw [List.map_set]
    apply List.ext_getElem?
    intro j
    rw [List.getElem?_set]
    split
    · rename_i hij
      subst hij
      have := (List.getElem?_eq_some_iff.1 h).1
      simp only [List.length_map, this, if_true, List.getElem?_map, h, Option.map_some]
      rfl
    · rfl
  · intro hn x hx b hb
    rw [List.getElem?_set] at hx
    split at hx
    · split at hx
      · cases hx
        cases hb
      · cases hx
    · exact hn x hx b hb

theorem Refilled.get {bk bk' : List Booked.Directive} (h : Refilled bk bk') {i : Nat} {d : Booked.Directive} (hd : bk[i]? = some d) :
    ∃ d', bk'[i]? = some d' ∧ d'.idx = d.idx := by
  have := congrArg (fun l => l[i]?) h.idx
  simp only [List.getElem?_map, hd, Option.map_some] at this
  cases hb : bk'[i]? with
  | none => simp [hb] at this
  | some d' => simp only [hb, Option.map_some, Option.some.injEq] at this; exact ⟨d', rfl, this⟩

theorem Refilled.length {bk bk' : List Booked.Directive} (h : Refilled bk bk') : bk'.length = bk.length := by
  simpa using congrArg List.length h.idx

/-- What is returned when a directive is booked. -/
theorem State.directive_returns {env : Env L} {n : Nat} {st st' : State L} {raw : Raw.Directive} {bk bk' : List Booked.Directive}
    {v : Booked.Variant} {v2 : Option Booked.Variant} (hi : StInv n bk st)
    (hu : ∀ d ∈ bk, UsesOnly M K N d) (ha : ∀ a ∈ accountsOf raw, M a = K n ∧ N a)
    (h : st.directive env raw { directive := n } bk = .ok st' (v, v2, bk')) :
    Refilled bk bk' ∧ (∀ d ∈ bk', UsesOnly M K N d) ∧ UsesOnly M K N (mkBooked n raw v) ∧
      (∀ w ∈ v2, UsesOnly M K N (mkBooked n raw w)) ∧ (v2.isSome → ∃ p, raw.variant = .pad p) ∧
      ((∃ b, v = .balance b) → ∃ b, raw.variant = .balance b) := by
  rcases State.directive_ok h with ⟨t, hv, ht, rfl, rfl⟩ | ⟨b, hv, hb, rfl⟩ | ⟨o, hv, ho, rfl, rfl⟩ | ⟨cl, hv, hc, rfl, rfl⟩ |
    ⟨p, v', hv, hp, rfl, rfl⟩ | ⟨hpl, rfl, rfl, rfl⟩
  · obtain ⟨q, -, -, -, rfl⟩ := State.transaction_ok ht
    refine ⟨.refl _, hu, ⟨(by rintro p ⟨⟩), ?_⟩, (by simp), (by simp), (by rintro ⟨b, ⟨⟩⟩)⟩
    intro t' ht' p hp
    cases ht'
    obtain ⟨z, hz, he⟩ := bookedPostings_acc hp
    have := ha z.2.acc (by
      unfold accountsOf
      rw [hv]
      exact List.mem_map.2 ⟨z.2, (List.of_mem_zip hz).2, rfl⟩)
    rw [he]
    exact this
  · have hba := ha b.acc (by simp [accountsOf, hv])
    obtain ⟨y, -, hy, -, hcase⟩ := State.balance_ok hb
    rcases hcase with ⟨-, -, rfl, rfl⟩ | ⟨m, -, -, -, rfl, rfl⟩ | ⟨m, i, e0, -, hyp, hf⟩
    · exact ⟨.refl _, hu, ⟨(by rintro p ⟨⟩), (by rintro p ⟨⟩)⟩, (by simp), (by simp), fun _ => ⟨b, hv⟩⟩
    · exact ⟨.refl _, hu, ⟨(by rintro p ⟨⟩), (by rintro p ⟨⟩)⟩, (by simp), (by simp), fun _ => ⟨b, hv⟩⟩
    · obtain ⟨d1, p, d2, t, src, h1, h2, h3, h4, rfl, h6, -, rfl⟩ := State.fillPad_ok hf
      obtain ⟨f, q, f2, u, g1, g2, g3, g4, g5, g6, g7, g8⟩ := hi.pad _ _ _ _ hy hyp
      rw [h1] at g1; cases g1
      rw [h2] at g2; cases g2
      rw [h3] at g5; cases g5
      have hp1 := (hu d1 (List.mem_of_getElem? h1)).pad p h2
      refine ⟨.set h3 _ _, ?_, ⟨(by rintro p ⟨⟩), (by rintro p ⟨⟩)⟩, (by simp), (by simp), fun _ => ⟨b, hv⟩⟩
      intro d hd
      rcases List.mem_or_eq_of_mem_set hd with hd | rfl
      · exact hu d hd
      · refine ⟨(by rintro p ⟨⟩), ?_⟩
        intro t' ht' q hq
        cases ht'
        simp only [calculateBalancePadPostings, List.mem_cons, List.not_mem_nil, or_false] at hq
        show M q.acc = K d2.idx ∧ N q.acc
        rw [g8]
        rcases hq with rfl | rfl
        · rw [← g3]; exact ⟨hp1.1, hp1.2.2.1⟩
        · exact ⟨hp1.2.1, hp1.2.2.2⟩
  · obtain ⟨-, -, rfl, -⟩ := State.opn_ok ho
    exact ⟨.refl _, hu, ⟨(by rintro p ⟨⟩), (by rintro p ⟨⟩)⟩, (by simp), (by simp), (by rintro ⟨b, ⟨⟩⟩)⟩
  · obtain ⟨-, -, rfl, -⟩ := State.close_ok hc
    exact ⟨.refl _, hu, ⟨(by rintro p ⟨⟩), (by rintro p ⟨⟩)⟩, (by simp), (by simp), (by rintro ⟨b, ⟨⟩⟩)⟩
  · obtain ⟨y, -, hy, hyp, -, rfl, rfl⟩ := State.pad_ok hp
    refine ⟨.refl _, hu, ⟨?_, (by rintro p ⟨⟩)⟩, ?_, fun _ => ⟨p, hv⟩, (by rintro ⟨b, ⟨⟩⟩)⟩
    · intro p' hp'
      cases hp'
      have h1 := ha p.acc (by simp [accountsOf, hv])
      have h2 := ha p.source (by simp [accountsOf, hv])
      exact ⟨h1.1, h2.1, h1.2, h2.2⟩
    · intro w hw
      cases hw
      refine ⟨(by rintro p ⟨⟩), ?_⟩
      intro t ht q hq
      cases ht
      simp at hq
  · refine ⟨.refl _, hu, ⟨?_, ?_⟩, (by simp), (by simp), ?_⟩
    · rintro p rfl
      cases hr : raw.variant <;> simp [hr, plainVariant] at hpl
    · rintro p rfl
      cases hr : raw.variant <;> simp [hr, plainVariant] at hpl
    · rintro ⟨b, rfl⟩
      cases hr : raw.variant <;> simp [hr, plainVariant] at hpl

/-- What is true all along. -/
structure PartInv (M : Str → Bool) (K : Nat → Bool) (N : Str → Prop) (n : Nat) (r : Run L) : Prop where
  st : StInv n r.booked r.st
  names : ∀ a x, r.st.accounts.get a = some x → N a
  uses : ∀ d ∈ r.booked, UsesOnly M K N d
  windows : ∀ a x w, r.st.accounts.get a = some x → x.window = some w → ∃ d, r.booked[w.stop]? = some d ∧ K d.idx = M a

theorem PartInv.init : PartInv M K N 0 ({} : Run L) where
  st := StInv.init
  names := by simp
  uses := by simp
  windows := by simp

theorem PartInv.step {env : Env L} {n : Nat} {raw : Raw.Directive} {r r' : Run L} (h : PartInv M K N n r)
    (ha : ∀ a ∈ accountsOf raw, M a = K n ∧ N a) (hs : r.step env n raw = some r') : PartInv M K N (n + 1) r' := by
  refine ⟨h.st.step hs, ?_, ?_, ?_⟩
  · intro a x' hx
    rcases Run.step_some hs with ⟨st', x, hd, rfl⟩ | ⟨st', v, v2, bk, errs, hd, -, rfl⟩
    · rcases State.directive_accounts (Or.inr ⟨x, hd⟩) a x' hx with ⟨y, hy, -⟩ | ⟨o, ho, rfl, -⟩ | ⟨b, y, s, -, -, hy, -⟩
      · exact h.names a y hy
      · exact (ha o.acc (by simp [accountsOf, ho])).2
      · exact h.names a y hy
    · rcases State.directive_accounts (Or.inl ⟨_, hd⟩) a x' hx with ⟨y, hy, -⟩ | ⟨o, ho, rfl, -⟩ | ⟨b, y, s, -, -, hy, -⟩
      · exact h.names a y hy
      · exact (ha o.acc (by simp [accountsOf, ho])).2
      · exact h.names a y hy
  · rcases Run.step_some hs with ⟨st', x, hd, rfl⟩ | ⟨st', v, v2, bk, errs, hd, -, rfl⟩
    · exact h.uses
    · obtain ⟨-, h2, h3, h4, -⟩ := State.directive_returns h.st h.uses ha hd
      intro d hdm
      simp only [List.mem_append, List.mem_singleton] at hdm
      rcases hdm with (hdm | rfl) | hdm
      · exact h2 d hdm
      · exact h3
      · cases v2 with
        | none => simp at hdm
        | some w =>
          simp only [Option.map_some, Option.toList_some, List.mem_singleton] at hdm
          subst hdm
          exact h4 w rfl
  · intro a x' w hx hw
    rcases Run.step_some hs with ⟨st', x, hd, rfl⟩ | ⟨st', v, v2, bk, errs, hd, -, rfl⟩
    · rcases State.directive_accounts (Or.inr ⟨x, hd⟩) a x' hx with ⟨y, hy, hwin⟩ | ⟨o, ho, rfl, hwin⟩ | ⟨b, y, s, -, -, -, -, hd'⟩
      · exact h.windows a y w hy (by rw [← hwin]; exact hw)
      · rw [hw] at hwin; cases hwin
      · rw [hd] at hd'; cases hd'
    · obtain ⟨h1, -⟩ := State.directive_returns h.st h.uses ha hd
      rcases State.directive_accounts (Or.inl ⟨_, hd⟩) a x' hx with ⟨y, hy, hwin⟩ | ⟨o, ho, rfl, hwin⟩ | ⟨b, y, s, hb, rfl, hy, hwin, -⟩
      · obtain ⟨d, hd1, hd2⟩ := h.windows a y w hy (by rw [← hwin]; exact hw)
        obtain ⟨d', hd1', hd2'⟩ := h1.get hd1
        refine ⟨d', ?_, by rw [hd2']; exact hd2⟩
        have := (List.getElem?_eq_some_iff.1 hd1').1
        rw [List.append_assoc, List.getElem?_append_left this]
        exact hd1'
      · rw [hw] at hwin; cases hwin
      · rw [hw] at hwin
        simp only [Account.advance, Option.some.injEq] at hwin
        subst hwin
        refine ⟨mkBooked n raw v, ?_, ?_⟩
        · rw [List.append_assoc, List.getElem?_append_right (by rw [h1.length])]
          simp [h1.length]
        · exact (ha b.acc (by simp [accountsOf, hb])).1.symm

/-- An assertion is not booked before anything else. -/
structure FirstInv (r : Run L) : Prop where
  some_ : r.booked = [] → ∀ a, r.st.accounts.get a = none
  first : NoAssertionFirst r.booked

theorem FirstInv.init : FirstInv ({} : Run L) := ⟨fun _ _ => rfl, by intro d h; simp at h⟩

theorem FirstInv.step {env : Env L} {n : Nat} {raw : Raw.Directive} {r r' : Run L} (h : FirstInv r)
    (hs : r.step env n raw = some r') : FirstInv r' := by
  rcases Run.step_some hs with ⟨st', x, hd, rfl⟩ | ⟨st', v, v2, bk, errs, hd, -, rfl⟩
  · refine ⟨fun hb a => ?_, h.first⟩
    cases hx : st'.accounts.get a with
    | none => rfl
    | some x' =>
      exfalso
      have hempty := h.some_ hb
      rcases State.directive_accounts (Or.inr ⟨x, hd⟩) a x' hx with ⟨y, hy, -⟩ | ⟨o, ho, rfl, -⟩ | ⟨b, y, s, -, -, hy, -⟩
      · rw [hempty] at hy; cases hy
      · unfold State.directive at hd
        rw [ho] at hd
        simp only at hd
        cases hop : r.st.opn env o { directive := n } with
        | panic => rw [hop] at hd; cases hd
        | ok s1 v1 => rw [hop] at hd; cases hd
        | err s1 x1 =>
          rw [hop] at hd
          cases hd
          rcases State.opn_err hop with ⟨prev, -, rfl, -⟩ | ⟨closed, -, -, rfl, -⟩
          · rw [hempty] at hx; cases hx
          · rw [show ({ r.st with opened := r.st.opened.set o.acc { directive := n } } : State L).accounts = r.st.accounts from rfl, hempty] at hx
            cases hx
      · rw [hempty] at hy; cases hy
  · refine ⟨fun hb => by simp at hb, ?_⟩
    have hre : NoAssertionFirst bk ∧ (bk = [] → ∀ b, v ≠ .balance b) := by
      rcases State.directive_ok hd with ⟨t, hv, ht, -, rfl⟩ | ⟨b, hv, hb, -⟩ | ⟨o, hv, ho, -, rfl⟩ | ⟨cl, hv, hc, -, rfl⟩ |
        ⟨p, v', hv, hp, -, rfl⟩ | ⟨hpl, -, -, rfl⟩
      · obtain ⟨q, -, -, -, rfl⟩ := State.transaction_ok ht
        exact ⟨h.first, fun _ b hb => by cases hb⟩
      · obtain ⟨y, -, hy, -, hcase⟩ := State.balance_ok hb
        have hne : r.booked ≠ [] := fun he => by rw [h.some_ he] at hy; cases hy
        rcases hcase with ⟨-, -, -, rfl⟩ | ⟨m, -, -, -, -, rfl⟩ | ⟨m, i, e0, -, hyp, hf⟩
        · exact ⟨h.first, fun he => absurd he hne⟩
        · exact ⟨h.first, fun he => absurd he hne⟩
        · obtain ⟨d1, p, d2, t, src, -, -, h3, -, rfl, -⟩ := State.fillPad_ok hf
          refine ⟨(Refilled.set h3 _ _).first h.first, fun he => ?_⟩
          rw [List.set_eq_nil_iff] at he
          exact absurd he hne
      · obtain ⟨-, -, rfl, -⟩ := State.opn_ok ho
        exact ⟨h.first, fun _ b hb => by cases hb⟩
      · obtain ⟨-, -, rfl, -⟩ := State.close_ok hc
        exact ⟨h.first, fun _ b hb => by cases hb⟩
      · obtain ⟨y, -, -, -, -, rfl, -⟩ := State.pad_ok hp
        exact ⟨h.first, fun _ b hb => by cases hb⟩
      · refine ⟨h.first, ?_⟩
        rintro - b rfl
        cases hr : raw.variant <;> simp [hr, plainVariant] at hpl
    intro d hd0 b hb
    cases bk with
    | nil =>
      simp only [List.nil_append, List.cons_append, List.getElem?_cons_zero, Option.some.injEq] at hd0
      subst hd0
      exact hre.2 rfl b hb
    | cons d' bk =>
      simp only [List.cons_append, List.getElem?_cons_zero, Option.some.injEq] at hd0
      subst hd0
      exact hre.1 d' rfl b hb

/-! ### Where reports are -/

theorem Account.validateCurrency_loc {a : Account L} {cur : Str} {e : ElementIdx} {x : IndexedReport} (h : a.validateCurrency cur e = some x) :
    x.idx = e := by
  unfold Account.validateCurrency at h
  split at h
  · cases h
  · cases h; rfl

theorem State.validateAccount_loc {st : State L} {a : Str} {e : ElementIdx} {x : IndexedReport} (h : st.validateAccount a e = some x) :
    x.idx = e := by
  unfold State.validateAccount at h
  split at h
  · cases h
  · split at h <;> (cases h; rfl)

theorem State.getValidAccount_loc {st : State L} {a : Str} {e : ElementIdx} {x : IndexedReport} (h : st.getValidAccount a e = .err x) :
    x.idx = e := State.validateAccount_loc (State.getValidAccount_err.1 h)

theorem State.firstPostingError_loc {st : State L} {e : ElementIdx} {i : Nat} {zs : List (Interpolated × Raw.PostingSpec)} {x : IndexedReport}
    (h : st.firstPostingError e i zs = .err x) : x.idx.directive = e.directive := by
  induction zs generalizing i with
  | nil => cases h
  | cons z zs ih =>
    obtain ⟨ip, p⟩ := z
    simp only [State.firstPostingError] at h
    cases hv : st.validateAccountAndCurrency p.acc ip.currency { directive := e.directive, posting := some i } with
    | ok u => rw [hv] at h; exact ih h
    | panic => rw [hv] at h; cases h
    | err y =>
      rw [hv] at h
      cases h
      unfold State.validateAccountAndCurrency at hv
      cases hg : st.getValidAccount p.acc { directive := e.directive, posting := some i } with
      | panic => rw [hg] at hv; cases hv
      | err y =>
        rw [hg] at hv
        cases hv
        rw [State.getValidAccount_loc hg]
      | ok a =>
        rw [hg] at hv
        simp only at hv
        cases hc : a.validateCurrency ip.currency { directive := e.directive, posting := some i } with
        | none => rw [hc] at hv; cases hv
        | some y =>
          rw [hc] at hv
          cases hv
          rw [Account.validateCurrency_loc hc]

theorem State.installInventory_loc {e : ElementIdx} {st st' : State L} {us : List (Str × L.Pos)} {x : IndexedReport}
    (h : State.installInventory e st us = .err st' x) : x.idx = e := by
  induction us generalizing st with
  | nil => cases h
  | cons u us ih =>
    obtain ⟨a, pos⟩ := u
    simp only [State.installInventory] at h
    cases hg : st.getValidAccount a e with
    | ok y => rw [hg] at h; exact ih h
    | panic => rw [hg] at h; cases h
    | err y =>
      rw [hg] at h
      cases h
      exact State.getValidAccount_loc hg

theorem PartInv.padAt {n : Nat} {r : Run L} (h : PartInv M K N n r) {a : Str} {x : Account L} {i : Nat} {e : ElementIdx}
    (hx : r.st.accounts.get a = some x) (hp : x.pad = some (i, e)) : K e.directive = M a := by
  obtain ⟨d, p, d2, t, h1, h2, h3, rfl, -⟩ := h.st.pad _ _ _ _ hx hp
  rw [← h3]
  exact ((h.uses d (List.mem_of_getElem? h1)).pad p h2).1.symm

theorem PartInv.err_loc {env : Env L} {n : Nat} {raw : Raw.Directive} {r : Run L} {st' : State L} {x : IndexedReport} (h : PartInv M K N n r)
    (ha : ∀ a ∈ accountsOf raw, M a = K n ∧ N a)
    (hd : r.st.directive env raw { directive := n } r.booked = .err st' x) : K x.idx.directive = K n := by
  rcases State.directive_err hd with ⟨t, hv, ht⟩ | ⟨b, hv, hb⟩ | ⟨o, hv, ho⟩ | ⟨cl, hv, hc⟩ | ⟨p, hv, hp⟩
  · rcases State.transaction_err ht with ⟨-, text, -, rfl⟩ | ⟨-, i, text, -, rfl⟩ | ⟨q, -, ⟨-, hf⟩ | ⟨-, hi⟩⟩
    · rfl
    · rfl
    · rw [State.firstPostingError_loc hf]
    · rw [State.installInventory_loc hi]
  · rcases (State.balance_err hb).2 with h1 | ⟨a, -, -, h1⟩
    · rw [State.validateAccount_loc h1]
    · rw [Account.validateCurrency_loc h1]
  · rcases State.opn_err ho with ⟨prev, -, -, rfl⟩ | ⟨closed, -, -, -, rfl⟩ <;> rfl
  · rcases (State.close_err hc).2 with ⟨-, rfl⟩ | ⟨p, q, -, -, rfl⟩ <;> rfl
  · rcases State.pad_err hp with ⟨-, h1⟩ | ⟨a, j, u, -, hy, hu, -, rfl⟩
    · rw [State.validateAccount_loc h1]
    · show K u.directive = K n
      rw [h.padAt hy hu]
      exact (ha p.acc (by simp [accountsOf, hv])).1

theorem PartInv.errs_loc {env : Env L} {n : Nat} {raw : Raw.Directive} {r : Run L} {st' : State L} {v : Booked.Variant}
    {v2 : Option Booked.Variant} {bk' : List Booked.Directive} {errs : List IndexedReport} (h : PartInv M K N n r)
    (ha : ∀ a ∈ accountsOf raw, M a = K n ∧ N a)
    (hd : r.st.directive env raw { directive := n } r.booked = .ok st' (v, v2, bk'))
    (he : balanceErrors st' { directive := n } bk' v = some errs) : ∀ x ∈ errs, K x.idx.directive = K n := by
  intro x hx
  rcases mem_balanceErrors he hx with ⟨b, p, rfl, hp, rfl⟩ | ⟨b, m, t, -, -, h1, -⟩
  · rcases State.directive_ok hd with ⟨t, hv, ht, -, rfl⟩ | ⟨b', hv, hb, -⟩ | ⟨o, hv, ho, -, rfl⟩ | ⟨cl, hv, hc, -, rfl⟩ |
      ⟨p', v', hv, hp', -, rfl⟩ | ⟨hpl, -, -, rfl⟩
    · obtain ⟨q, -, -, -, h⟩ := State.transaction_ok ht
      cases h
    · obtain ⟨y, -, hy, -, hcase⟩ := State.balance_ok hb
      rcases hcase with ⟨-, -, h1, -⟩ | ⟨m, -, -, -, h1, -⟩ | ⟨m, i, e0, -, hyp, hf⟩
      · cases h1
        simp only [Option.map_eq_some_iff] at hp
        obtain ⟨⟨i, e⟩, hp, rfl⟩ := hp
        show K e.directive = K n
        rw [h.padAt hy hp]
        exact (ha b'.acc (by simp [accountsOf, hv])).1
      · cases h1
        cases hp
      · obtain ⟨d1, p, d2, t, src, -, -, -, -, -, -, -, h1⟩ := State.fillPad_ok hf
        cases h1
        cases hp
    · obtain ⟨-, -, h, -⟩ := State.opn_ok ho
      cases h
    · obtain ⟨-, -, h, -⟩ := State.close_ok hc
      cases h
    · obtain ⟨y, -, -, -, -, h, -⟩ := State.pad_ok hp'
      cases h
    · cases hr : raw.variant <;> simp [hr, plainVariant] at hpl
  · rw [h1]

/-! ### One directive on other accounts -/

theorem keepB_set_ne {bk : List Booked.Directive} {i : Nat} {d : Booked.Directive} (h : bk[i]? = some d) (hK : K d.idx = false)
    (t : Booked.Transaction) (ps : List Booked.Posting) : keepB K (bk.set i (d.withPostings t ps)) = keepB K bk :=
  filter_set_neg (fun d : Booked.Directive => K d.idx) h hK hK

theorem PartInv.directive_ne (hL : L.Lawful) {env : Env L} {n : Nat} {raw : Raw.Directive} {r : Run L} {st' : State L} {c : Nat → Nat}
    (h : PartInv M K N n r) (ha : ∀ a ∈ accountsOf raw, M a = K n ∧ N a) (hK : K n = false) :
    (∀ v v2 bk', r.st.directive env raw { directive := n } r.booked = .ok st' (v, v2, bk') →
      st'.keep M K c = r.st.keep M K c ∧ keepB K bk' = keepB K r.booked) ∧
    (∀ x, r.st.directive env raw { directive := n } r.booked = .err st' x → st'.keep M K c = r.st.keep M K c) := by
  have hacc : ∀ a ∈ accountsOf raw, M a = false := fun a h => by rw [(ha a h).1, hK]
  constructor
  · intro v v2 bk' hd
    rcases State.directive_ok hd with ⟨t, hv, ht, -, rfl⟩ | ⟨b, hv, hb, -⟩ | ⟨o, hv, ho, -, rfl⟩ | ⟨cl, hv, hc, -, rfl⟩ |
      ⟨p, v', hv, hp, -, rfl⟩ | ⟨hpl, rfl, -, rfl⟩
    · exact ⟨State.keep_transaction_ne hL env _ _ t _ _ (fun p hp => hacc _ (by
        unfold accountsOf; rw [hv]; exact List.mem_map.2 ⟨p, hp, rfl⟩)) (Or.inl ⟨v, ht⟩), rfl⟩
    · have hba := hacc b.acc (by simp [accountsOf, hv])
      obtain ⟨y, -, hy, -, hcase⟩ := State.balance_ok hb
      rcases hcase with ⟨-, rfl, -, rfl⟩ | ⟨m, -, -, rfl, -, rfl⟩ | ⟨m, i, e0, -, hyp, hf⟩
      · exact ⟨State.keep_setAccount_ne hba _, rfl⟩
      · exact ⟨State.keep_setAccount_ne hba _, rfl⟩
      · obtain ⟨d1, p, d2, t, src, h1, h2, h3, h4, rfl, h6, rfl, -⟩ := State.fillPad_ok hf
        obtain ⟨f, q, f2, u, g1, g2, g3, g4, g5, g6, g7, g8⟩ := h.st.pad _ _ _ _ hy hyp
        rw [h1] at g1; cases g1
        rw [h2] at g2; cases g2
        rw [h3] at g5; cases g5
        have hp1 := (h.uses d1 (List.mem_of_getElem? h1)).pad p h2
        have hKd : K d1.idx = false := by rw [← hp1.1, g3]; exact hba
        refine ⟨?_, keepB_set_ne h3 (by rw [g8]; exact hKd) _ _⟩
        rw [State.keep_setAccount_ne (by rw [hp1.2.1]; exact hKd)]
        exact State.keep_setAccount_ne hba _
    · exact ⟨State.keep_opn_ne _ _ o _ (hacc _ (by simp [accountsOf, hv])) hK (Or.inl ⟨v, ho⟩), rfl⟩
    · exact ⟨State.keep_close_ne _ _ cl _ (hacc _ (by simp [accountsOf, hv])) (Or.inl ⟨v, hc⟩), rfl⟩
    · exact ⟨State.keep_pad_ne _ _ p _ _ (hacc _ (by simp [accountsOf, hv])) (Or.inl ⟨(v, v'), hp⟩), rfl⟩
    · exact ⟨rfl, rfl⟩
  · intro x hd
    rcases State.directive_err hd with ⟨t, hv, ht⟩ | ⟨b, hv, hb⟩ | ⟨o, hv, ho⟩ | ⟨cl, hv, hc⟩ | ⟨p, hv, hp⟩
    · exact State.keep_transaction_ne hL env _ _ t _ _ (fun p hp => hacc _ (by
        unfold accountsOf; rw [hv]; exact List.mem_map.2 ⟨p, hp, rfl⟩)) (Or.inr ⟨x, ht⟩)
    · rw [(State.balance_err hb).1]
    · exact State.keep_opn_ne _ _ o _ (hacc _ (by simp [accountsOf, hv])) hK (Or.inr ⟨x, ho⟩)
    · rw [(State.close_err hc).1]
    · exact State.keep_pad_ne _ _ p _ _ (hacc _ (by simp [accountsOf, hv])) (Or.inr ⟨x, hp⟩)

/-- Positions beyond the booked directives do not occur. -/
theorem StInv.keep_congr {n : Nat} {bk : List Booked.Directive} {st : State L} (h : StInv n bk st) {c c' : Nat → Nat}
    (hc : ∀ i, i ≤ bk.length → c i = c' i) : st.keep M K c = st.keep M K c' := by
  have key : AMap.mapV (Account.moved c) (AMap.only M st.accounts) = AMap.mapV (Account.moved c') (AMap.only M st.accounts) := by
    unfold AMap.mapV
    apply List.map_congr_left
    rintro ⟨a, x⟩ hx
    have hg : st.accounts.get a = some x := AMap.get_of_mem h.wfA (by
      unfold AMap.only at hx
      exact (List.mem_filter.1 hx).1)
    have e : x.moved c = x.moved c' := by
      unfold Account.moved
      have e1 : (x.pad.map fun p => (c p.1, p.2)) = x.pad.map fun p => (c' p.1, p.2) := by
        cases hp : x.pad with
        | none => rfl
        | some p =>
          obtain ⟨i, e⟩ := p
          obtain ⟨d, q, d2, t, h1, -⟩ := h.pad _ _ _ _ hg hp
          simp only [Option.map_some]
          rw [hc i (Nat.le_of_lt (List.getElem?_eq_some_iff.1 h1).1)]
      have e2 : (x.window.map fun w => (⟨c w.start, c w.stop⟩ : Window)) = x.window.map fun w => ⟨c' w.start, c' w.stop⟩ := by
        cases hw : x.window with
        | none => rfl
        | some w =>
          obtain ⟨h1, h2⟩ := h.window _ _ _ hg hw
          simp only [Option.map_some]
          rw [hc _ (Nat.le_trans h1 h2), hc _ h2]
      rw [e1, e2]
    simp only [e]
  unfold State.keep
  rw [key]

theorem posIn_of_idx {bk bk' : List Booked.Directive} (h : bk'.map (fun d => d.idx) = bk.map fun d => d.idx) (i : Nat) :
    posIn K bk' i = posIn K bk i := by
  unfold posIn countTo
  have aux : ∀ l : List Booked.Directive, (l.filter fun d => K d.idx).length = ((l.map fun d => d.idx).filter K).length := by
    intro l
    induction l with
    | nil => rfl
    | cons d l ih =>
      simp only [List.filter_cons, List.map_cons]
      cases K d.idx <;> simp [ih]
  rw [aux, aux, List.map_take, List.map_take, h]

theorem posIn_append {bk x : List Booked.Directive} {i : Nat} (h : i ≤ bk.length) : posIn K (bk ++ x) i = posIn K bk i := by
  unfold posIn countTo
  rw [List.take_append_of_le_length h]

theorem keepE_append (a b : List IndexedReport) : keepE K (a ++ b) = keepE K a ++ keepE K b := List.filter_append ..

theorem keepB_append (a b : List Booked.Directive) : keepB K (a ++ b) = keepB K a ++ keepB K b := List.filter_append ..

theorem keepE_none {es : List IndexedReport} (h : ∀ x ∈ es, K x.idx.directive = false) : keepE K es = [] :=
  List.filter_eq_nil_iff.2 fun x hx => by simp [h x hx]

theorem keepE_all {es : List IndexedReport} (h : ∀ x ∈ es, K x.idx.directive = true) : keepE K es = es :=
  List.filter_eq_self.2 fun x hx => by simp [h x hx]

theorem PartInv.keep_step_ne (hL : L.Lawful) {env : Env L} {n : Nat} {raw : Raw.Directive} {r r' : Run L} (h : PartInv M K N n r)
    (ha : ∀ a ∈ accountsOf raw, M a = K n ∧ N a) (hK : K n = false) (hs : r.step env n raw = some r') : r'.keep M K = r.keep M K := by
  rcases Run.step_some hs with ⟨st', x, hd, rfl⟩ | ⟨st', v, v2, bk, errs, hd, he, rfl⟩
  · unfold Run.keep
    rw [(h.directive_ne hL ha hK).2 x hd, keepE_append, keepE_none (es := [x])]
    · simp
    · simpa [hK] using h.err_loc ha hd
  · obtain ⟨h1, h2⟩ := (h.directive_ne (c := posIn K r.booked) hL ha hK).1 v v2 bk hd
    obtain ⟨g1, -⟩ := State.directive_returns h.st h.uses ha hd
    have hi := h.st.step hs
    unfold Run.keep
    have e1 : keepB K (bk ++ [mkBooked n raw v] ++ (v2.map (mkBooked n raw)).toList) = keepB K r.booked := by
      rw [keepB_append, keepB_append, h2]
      have x1 : keepB K [mkBooked n raw v] = [] := by simp [keepB, mkBooked, hK]
      have x2 : keepB K (v2.map (mkBooked n raw)).toList = [] := by
        cases v2 with
        | none => rfl
        | some w => simp [keepB, mkBooked, hK]
      rw [x1, x2]
      simp
    have e2 : keepE K (r.errors ++ errs) = keepE K r.errors := by
      rw [keepE_append, keepE_none (es := errs) (fun x hx => by rw [h.errs_loc ha hd he x hx, hK])]
      simp
    have e3 : st'.keep M K (posIn K (bk ++ [mkBooked n raw v] ++ (v2.map (mkBooked n raw)).toList)) = r.st.keep M K (posIn K r.booked) := by
      rw [(h.directive_ne (c := posIn K (bk ++ [mkBooked n raw v] ++ (v2.map (mkBooked n raw)).toList)) hL ha hK).1 v v2 bk hd |>.1]
      apply h.st.keep_congr
      intro i hle
      rw [List.append_assoc, posIn_append (by rw [g1.length]; exact hle), posIn_of_idx g1.idx]
    simp only [e1, e2, e3]

/-! ### One directive on those accounts -/

/-- What a directive yields. -/
def keepS (K : Nat → Bool) (s : Stepped) : Stepped := (s.1, s.2.1, keepB K s.2.2)

theorem PartInv.keep_directive (hL : L.Lawful) (hl : LooksAtItsAccounts L) {env : Env L} (hf : env.Fair) {n : Nat} {raw : Raw.Directive} {r : Run L}
    {c : Nat → Nat} (h : PartInv M K N n r) (hN : ∀ a b, N a → N b → Below a b → M a = M b)
    (ha : ∀ a ∈ accountsOf raw, M a = K n ∧ N a) (hK : K n = true) (hc : ∀ i, i ≤ r.booked.length → c i = posIn K r.booked i) :
    (r.st.keep M K c).directive env raw { directive := n } (keepB K r.booked) =
      (r.st.directive env raw { directive := n } r.booked).keep M K c (keepS K) := by
  have hacc : ∀ a ∈ accountsOf raw, M a = true := fun a h => by rw [(ha a h).1, hK]
  have hpl : ∀ res : Res (State L) Booked.Variant, (res.keep M K c id).plain (keepB K r.booked) = (res.plain r.booked).keep M K c (keepS K) := by
    intro res; cases res <;> rfl
  have hlen : (keepB K r.booked).length = c r.booked.length := by
    rw [hc _ (Nat.le_refl _)]; exact (countTo_length _ _).symm
  unfold State.directive
  cases hv : raw.variant with
  | transaction t =>
    simp only
    rw [State.keep_transaction hL hl env _ t _ _ (fun p hp => hacc _ (by
        unfold accountsOf; rw [hv]; exact List.mem_map.2 ⟨p, hp, rfl⟩)), hpl]
  | balance b =>
    simp only
    have hb := hacc b.acc (by simp [accountsOf, hv])
    have hNb := (ha b.acc (by simp [accountsOf, hv])).2
    rw [State.keep_balance hf _ b _ _ hb hc ?_ ?_ ?_]
    · cases r.st.balance env b { directive := n } r.booked <;> rfl
    · intro k hk hsub
      obtain ⟨x, hx⟩ := (AMap.mem_keys_iff _ _).1 hk
      rw [← hN b.acc k hNb (h.names k x hx) ((sub_iff_below _ _).1 hsub)]
      exact hb
    · intro a i e h1 h2
      exact h.st.pad _ _ _ _ h1 h2
    · intro d hd p hp
      have := (h.uses d hd).pad p hp
      exact ⟨this.1, this.2.1⟩
  | opn o => simp only [State.keep_opn r.st o { directive := n } (hacc o.acc (by simp [accountsOf, hv])) hK, hpl]
  | close cl => simp only [State.keep_close _ cl _ (hacc cl.acc (by simp [accountsOf, hv])), hpl]
  | pad p =>
    simp only
    rw [hlen, State.keep_pad _ p _ _ (hacc p.acc (by simp [accountsOf, hv]))]
    cases r.st.pad p r.booked.length { directive := n } <;> rfl
  | _ => rfl

theorem PartInv.keep_balanceErrors {env : Env L} {n : Nat} {raw : Raw.Directive} {r : Run L} {st' : State L} {v : Booked.Variant}
    {v2 : Option Booked.Variant} {bk' : List Booked.Directive} {c : Nat → Nat} (h : PartInv M K N n r)
    (hN : ∀ a b, N a → N b → Below a b → M a = M b) (ha : ∀ a ∈ accountsOf raw, M a = K n ∧ N a) (hK : K n = true)
    (h1 : NoAssertionFirst r.booked) (h2 : NoAssertionFirst (keepB K r.booked)) (hc : ∀ i, i ≤ r.booked.length → c i = posIn K r.booked i)
    (hd : r.st.directive env raw { directive := n } r.booked = .ok st' (v, v2, bk')) :
    balanceErrors (st'.keep M K c) { directive := n } (keepB K bk') v = balanceErrors st' { directive := n } bk' v := by
  cases v with
  | balance bal =>
    unfold balanceErrors
    simp only
    cases hm : bal.margin with
    | none => rfl
    | some m =>
      simp only
      rcases State.directive_ok hd with ⟨t, hv, ht, -, rfl⟩ | ⟨b', hv, hb, -⟩ | ⟨o, hv, ho, -, rfl⟩ | ⟨cl, hv, hc, -, rfl⟩ |
        ⟨p', v', hv, hp', -, rfl⟩ | ⟨hpl, -, -, rfl⟩
      · obtain ⟨q, -, -, -, h⟩ := State.transaction_ok ht
        cases h
      · obtain ⟨y, -, hy, -, hcase⟩ := State.balance_ok hb
        have hM := (ha b'.acc (by simp [accountsOf, hv])).1
        have hNb := (ha b'.acc (by simp [accountsOf, hv])).2
        rw [hK] at hM
        rcases hcase with ⟨-, -, g, -⟩ | ⟨m', -, -, rfl, g, rfl⟩ | ⟨m', i, e0, -, hyp, hf⟩
        · cases g
          cases hm
        · cases g
          cases hm
          simp only
          rw [State.keep_balanceReport _ _ _ _ _ _ hM hc ?_ ?_]
          · intro a w hga hw
            unfold State.resetTo at hga
            simp only [State.setAccount, AMap.get_set_self, Option.some.injEq] at hga
            subst hga
            simp only [Account.adjustAdd, Account.advance, Option.some.injEq] at hw
            subst hw
            simp only
            cases hyw : y.window with
            | none => exact ⟨Nat.zero_le _, Nat.le_refl _, Or.inr ⟨rfl, h1, h2⟩⟩
            | some w0 =>
              obtain ⟨d, g1, g2⟩ := h.windows _ _ _ hy hyw
              exact ⟨(h.st.window _ _ _ hy hyw).2, Nat.le_refl _, Or.inl ⟨d, g1, by rw [g2]; exact hM⟩⟩
          · intro d hdm hKd t ht p hp
            obtain ⟨g1, g2⟩ := (h.uses d hdm).moves t ht p hp
            cases hsub : isNonstrictSubaccount b'.acc p.acc with
            | false => rfl
            | true =>
              have := hN b'.acc p.acc hNb g2 ((sub_iff_below _ _).1 hsub)
              rw [hM, g1, hKd] at this
              cases this
        · obtain ⟨d1, p, d2, t, src, -, -, -, -, -, -, -, h1⟩ := State.fillPad_ok hf
          cases h1
          cases hm
      · obtain ⟨-, -, h, -⟩ := State.opn_ok ho
        cases h
      · obtain ⟨-, -, h, -⟩ := State.close_ok hc
        cases h
      · obtain ⟨y, -, -, -, -, h, -⟩ := State.pad_ok hp'
        cases h
      · cases hr : raw.variant <;> simp [hr, plainVariant] at hpl
  | _ => rfl

theorem PartInv.keep_step (hL : L.Lawful) (hl : LooksAtItsAccounts L) {env : Env L} (hf : env.Fair) {n : Nat} {raw : Raw.Directive} {r : Run L}
    (h : PartInv M K N n r) (hN : ∀ a b, N a → N b → Below a b → M a = M b) (ha : ∀ a ∈ accountsOf raw, M a = K n ∧ N a) (hK : K n = true)
    (h1 : NoAssertionFirst r.booked) (h2 : NoAssertionFirst (keepB K r.booked)) :
    (r.keep M K).step env n raw = (r.step env n raw).map (Run.keep M K) := by
  cases hd : r.st.directive env raw { directive := n } r.booked with
  | panic =>
    have e1 := h.keep_directive hL hl hf hN ha hK (c := posIn K r.booked) (fun _ _ => rfl)
    rw [hd] at e1
    unfold Run.step
    simp only [Run.keep, e1, hd, Res.keep, Option.map_none]
  | err st' x =>
    have e1 := h.keep_directive hL hl hf hN ha hK (c := posIn K r.booked) (fun _ _ => rfl)
    rw [hd] at e1
    unfold Run.step
    have hx : keepE K [x] = [x] := keepE_all (by simpa [hK] using h.err_loc ha hd)
    simp only [Run.keep, e1, hd, Res.keep, Option.map_some, keepE_append, hx]
  | ok st' s =>
    obtain ⟨v, v2, bk⟩ := s
    obtain ⟨g1, -⟩ := State.directive_returns h.st h.uses ha hd
    have hc : ∀ i, i ≤ r.booked.length →
        posIn K (bk ++ [mkBooked n raw v] ++ (v2.map (mkBooked n raw)).toList) i = posIn K r.booked i := by
      intro i hle
      rw [List.append_assoc, posIn_append (by rw [g1.length]; exact hle), posIn_of_idx g1.idx]
    have e0 := h.st.keep_congr (M := M) (K := K) hc
    have e1 := h.keep_directive hL hl hf hN ha hK hc
    have e2 := h.keep_balanceErrors hN ha hK h1 h2 hc hd
    rw [hd] at e1
    unfold Run.step
    simp only [Run.keep, ← e0, e1, hd, Res.keep, keepS, e2]
    cases he : balanceErrors st' { directive := n } bk v with
    | none => rfl
    | some errs =>
      have x0 : keepE K errs = errs := keepE_all fun x hx => by rw [h.errs_loc ha hd he x hx, hK]
      have x1 : keepB K [mkBooked n raw v] = [mkBooked n raw v] := by simp [keepB, mkBooked, hK]
      have x2 : keepB K (v2.map (mkBooked n raw)).toList = (v2.map (mkBooked n raw)).toList := by
        cases v2 with
        | none => rfl
        | some w => simp [keepB, mkBooked, hK]
      simp only [Option.map_some, Run.keep, keepB_append, keepE_append, x0, x1, x2]

end Limabean
