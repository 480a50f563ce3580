/-
Booking again what was booked.
-/
import Verif.Spec.Rebook

namespace Limabean

open Spec

section
variable {L : BookLib}

theorem firstPostingError_ok {st : State L} {e : ElementIdx} {i : Nat} {l : List (Interpolated × Raw.PostingSpec)} :
    st.firstPostingError e i l = .ok () ↔
      ∀ x ∈ l, ∀ e', st.validateAccountAndCurrency x.2.acc x.1.currency e' = .ok () := by
  have indep : ∀ a c e' e'', st.validateAccountAndCurrency a c e' = .ok () → st.validateAccountAndCurrency a c e'' = .ok () := by
    intro a c e' e'' h
    unfold State.validateAccountAndCurrency State.getValidAccount State.validateAccount Account.validateCurrency at h ⊢
    by_cases h1 : st.opened.has a
    · simp only [h1, if_true] at h ⊢
      cases h2 : st.accounts.get a with
      | none => simp [h2] at h
      | some x =>
        simp only [h2] at h ⊢
        by_cases h3 : x.isCurrencyValid c
        · simp [h3]
        · simp [h3] at h
    · simp only [h1] at h
      cases h2 : st.closed.get a <;> simp [h2] at h
  induction l generalizing i with
  | nil => simp [State.firstPostingError]
  | cons x l ih =>
    obtain ⟨ip, p⟩ := x
    simp only [State.firstPostingError, List.forall_mem_cons]
    cases h : st.validateAccountAndCurrency p.acc ip.currency { directive := e.directive, posting := some i } with
    | ok u =>
      simp only [ih]
      exact ⟨fun h' => ⟨fun e' => indep _ _ _ _ h, h'⟩, fun h' => h'.2⟩
    | err r => simp only [reduceCtorEq, false_iff]; exact fun h' => by rw [h'.1] at h; cases h
    | panic => simp only [reduceCtorEq, false_iff]; exact fun h' => by rw [h'.1] at h; cases h

/-- The postings of one interpolated posting, written out. -/
theorem written_index (i j : Nat) (ip : Interpolated) (p : Raw.PostingSpec) :
    (bookedPostingsOf i ip p).map postingWritten = (bookedPostingsOf j ip p).map postingWritten := by
  unfold bookedPostingsOf
  cases ip.cost with
  | none => rfl
  | some lots => simp [postingWritten, Function.comp_def]

theorem rebooked_one {is : List Interpolated} {ip : Interpolated} {p : Raw.PostingSpec} {i j : Nat}
    (h : List.Forall₂ SameInterpolated is (perLot ip)) :
    is.length = ((bookedPostingsOf i ip p).map postingWritten).length ∧
      (∀ x ∈ is.zip ((bookedPostingsOf i ip p).map postingWritten), x.2.acc = p.acc ∧ x.1.currency = ip.currency) ∧
      (bookedPostings j (is.zip ((bookedPostingsOf i ip p).map postingWritten))).map postingWritten =
        (bookedPostingsOf i ip p).map postingWritten := by
  cases hc : ip.cost with
  | none =>
    rw [perLot, hc] at h
    obtain ⟨k, is', hk, hn, rfl⟩ : ∃ k is', SameInterpolated k ip ∧ is' = [] ∧ is = k :: is' := by
      cases h with
      | cons h1 h2 => cases h2; exact ⟨_, _, h1, rfl, rfl⟩
    subst hn
    obtain ⟨k1, k2, k3, k4⟩ := hk
    have hc' : k.cost = none := by
      rw [hc] at k3
      cases hk : k.cost with
      | none => rfl
      | some x => rw [hk] at k3; exact k3.elim
    have hp : k.price.map priceWritten = ip.price.map priceWritten := by
      revert k4
      cases k.price <;> cases ip.price <;> simp [BothOrNone, PriceAlike, priceWritten]
    simp [bookedPostingsOf, bookedPostings, hc, hc', postingWritten, k1, k2, hp]
  | some lots =>
    rw [perLot, hc] at h
    dsimp only at h
    simp only [bookedPostingsOf, hc, List.map_map]
    rw [List.forall₂_map_right_iff] at h
    clear hc
    induction h generalizing j with
    | nil => simp [bookedPostings]
    | cons hk _ ih =>
      rename_i k l is' lots' _
      obtain ⟨h1, h2, h3⟩ := ih (j := j + 1)
      obtain ⟨k1, k2, k3, k4⟩ := hk
      obtain ⟨l', hl', hl⟩ : ∃ l', k.cost = some [l'] ∧ SameLot l' l := by
        cases hk : k.cost with
        | none => rw [hk] at k3; exact k3.elim
        | some x =>
          rw [hk] at k3
          cases k3 with
          | cons a b => cases b; exact ⟨_, rfl, a⟩
      obtain ⟨m1, m2, m3, m4, m5, m6⟩ := hl
      refine ⟨by simpa using h1, ?_, ?_⟩
      · intro x hx
        simp only [List.map_cons, List.zip_cons_cons, List.mem_cons] at hx
        rcases hx with rfl | hx
        · exact ⟨rfl, k2⟩
        · exact h2 x hx
      · simp only [List.map_cons, List.zip_cons_cons, bookedPostings, List.map_append]
        rw [h3]
        simp [bookedPostingsOf, hl', curPostingCostToCost, postingWritten, costWritten, m1, m2, m3, m4, m5, m6, k2]

theorem bookedPostings_append (j : Nat) (a b : List (Interpolated × Raw.PostingSpec)) :
    bookedPostings j (a ++ b) = bookedPostings j a ++ bookedPostings (j + a.length) b := by
  induction a generalizing j with
  | nil => simp [bookedPostings]
  | cons x a ih =>
    obtain ⟨ip, p⟩ := x
    simp only [List.cons_append, bookedPostings, ih, List.append_assoc, List.length_cons]
    rw [show j + 1 + a.length = j + (a.length + 1) from by omega]

theorem rebooked_all {is : List Interpolated} {l : List (Interpolated × Raw.PostingSpec)} {i j : Nat}
    (h : List.Forall₂ SameInterpolated is ((l.map Prod.fst).flatMap perLot)) :
    is.length = ((bookedPostings i l).map postingWritten).length ∧
      (∀ x ∈ is.zip ((bookedPostings i l).map postingWritten), ∃ y ∈ l, x.2.acc = y.2.acc ∧ x.1.currency = y.1.currency) ∧
      (bookedPostings j (is.zip ((bookedPostings i l).map postingWritten))).map postingWritten = (bookedPostings i l).map postingWritten := by
  induction l generalizing is i j with
  | nil =>
    cases h
    simp [bookedPostings]
  | cons x l ih =>
    obtain ⟨ip, p⟩ := x
    rw [List.map_cons, List.flatMap_cons] at h
    obtain ⟨is1, is2, h1, h2, rfl⟩ : ∃ is1 is2, List.Forall₂ SameInterpolated is1 (perLot ip) ∧
        List.Forall₂ SameInterpolated is2 ((l.map Prod.fst).flatMap perLot) ∧ is = is1 ++ is2 := by
      refine ⟨is.take (perLot ip).length, is.drop (perLot ip).length, ?_, ?_, (List.take_append_drop _ _).symm⟩
      · have := List.forall₂_take_append is _ _ h
        exact this
      · have := List.forall₂_drop_append is _ _ h
        exact this
    obtain ⟨a1, a2, a3⟩ := rebooked_one (i := i) (j := j) (p := p) h1
    obtain ⟨b1, b2, b3⟩ := ih (i := i + 1) (j := j + (is1.zip ((bookedPostingsOf i ip p).map postingWritten)).length) h2
    simp only [bookedPostings, List.map_append]
    rw [List.zip_append a1]
    refine ⟨by simp only [List.length_append, a1, b1], ?_, ?_⟩
    · intro x hx
      rcases List.mem_append.1 hx with hx | hx
      · exact ⟨(ip, p), by simp, a2 x hx⟩
      · obtain ⟨y, hy, e⟩ := b2 x hx
        exact ⟨y, by simp [hy], e⟩
    · rw [bookedPostings_append, List.map_append, a3, b3]

/-- No account is being padded. -/
def NoPads (st : State L) : Prop := ∀ a x, st.accounts.get a = some x → x.pad = none

theorem noPads_set {st : State L} (h : NoPads st) {a : Str} {x : Account L} (hx : x.pad = none) : NoPads (st.setAccount a x) := by
  intro b y hy
  simp only [State.setAccount, AMap.get_set] at hy
  split at hy
  · cases hy; exact hx
  · exact h b y hy

theorem noPads_install {e : ElementIdx} {l : List (Str × L.Pos)} {st st' : State L} (h : NoPads st)
    (hs : State.installInventory e st l = .ok st' ()) : NoPads st' := by
  induction l generalizing st with
  | nil => cases hs; exact h
  | cons x l ih =>
    obtain ⟨a, q⟩ := x
    simp only [State.installInventory] at hs
    cases hg : st.getValidAccount a e with
    | ok y =>
      rw [hg] at hs
      refine ih (noPads_set h ?_) hs
      unfold State.getValidAccount at hg
      cases hv : st.validateAccount a e with
      | some r => rw [hv] at hg; cases hg
      | none =>
        rw [hv] at hg
        cases ha : st.accounts.get a with
        | none => rw [ha] at hg; cases hg
        | some z => rw [ha] at hg; injection hg with hg; subst hg; exact h a z ha
    | err r => rw [hg] at hs; cases hs
    | panic => rw [hg] at hs; cases hs

/-- Booking the postings of a transaction again. -/
theorem book_again (hw : L.Lawful) (hL : Rebooks L) {env : Env L} {st st' : State L} {d : Date} {ps : List Raw.PostingSpec} {e : ElementIdx}
    {bs : List Booked.Posting} (h : st.book env d ps e = .ok st' bs) :
    ∃ bs', st.book env d (bs.map postingWritten) e = .ok st' bs' ∧ bs'.map postingWritten = bs.map postingWritten := by
  unfold State.book at h
  cases hb : L.book d ps env.tolerance st.inventory (st.bookingFor env) with
  | error x => rw [hb] at h; cases x <;> cases h
  | ok r =>
    rw [hb] at h
    dsimp only at h
    cases hf : st.firstPostingError e 0 (r.interpolated.zip ps) with
    | err x => rw [hf] at h; cases h
    | panic => rw [hf] at h; cases h
    | ok u =>
      rw [hf] at h
      dsimp only at h
      cases hi : State.installInventory e st r.updated with
      | err x y => rw [hi] at h; cases h
      | panic => rw [hi] at h; cases h
      | ok st1 u1 =>
        rw [hi] at h
        cases h
        obtain ⟨is, h1, h2⟩ := hL _ _ _ _ _ _ hb
        have hfst : (r.interpolated.zip ps).map Prod.fst = r.interpolated := List.map_fst_zip (le_of_eq (hw.book_length _ _ _ _ _ _ hb))
        obtain ⟨-, a2, a3⟩ := rebooked_all (is := is) (l := r.interpolated.zip ps) (i := 0) (j := 0) (by rw [hfst]; exact h2)
        refine ⟨_, ?_, a3⟩
        unfold State.book
        rw [h1]
        dsimp only
        have hf' : st.firstPostingError e 0 (is.zip ((bookedPostings 0 (r.interpolated.zip ps)).map postingWritten)) = .ok () := by
          rw [firstPostingError_ok] at hf ⊢
          intro x hx e'
          obtain ⟨y, hy, e1, e2⟩ := a2 x hx
          rw [e1, e2]
          exact hf y hy e'
        rw [hf', hi]

theorem getValid_pad {st : State L} (h : NoPads st) {a : Str} {e : ElementIdx} {x : Account L} (hg : st.getValidAccount a e = .ok x) :
    x.pad = none := by
  unfold State.getValidAccount at hg
  cases hv : st.validateAccount a e with
  | some r => rw [hv] at hg; cases hg
  | none =>
    rw [hv] at hg
    cases ha : st.accounts.get a with
    | none => rw [ha] at hg; cases hg
    | some z => rw [ha] at hg; injection hg with hg; subst hg; exact h a z ha

/-- Booking one directive again, where nothing is padded. -/
theorem directive_again (hw : L.Lawful) (hL : Rebooks L) {env : Env L} {st st' : State L} {d : Raw.Directive} {e : ElementIdx}
    {booked booked' : List Booked.Directive} {v : Booked.Variant} {v2 : Option Booked.Variant} (hn : NoPads st)
    (hp : ∀ p, d.variant ≠ .pad p) (hlen : booked'.length = booked.length)
    {b1 : List Booked.Directive} (h : st.directive env d e booked = .ok st' (v, v2, b1)) :
    b1 = booked ∧ v2 = none ∧ NoPads st' ∧
      ∃ v', (∀ d' : Raw.Directive, d'.date = d.date → d'.variant = variantWritten v →
        st.directive env d' e booked' = .ok st' (v', none, booked')) ∧ variantWritten v' = variantWritten v ∧
        ((∃ t, v = .transaction t ∧ ∃ t', v' = .transaction t') ∨ v' = v) := by
  cases hv : d.variant with
  | pad p => exact absurd hv (hp p)
  | transaction t =>
    simp only [State.directive, hv, State.transaction] at h
    cases hb : st.book env d.date t.postings e with
    | err x y => rw [hb] at h; cases h
    | panic => rw [hb] at h; cases h
    | ok s1 bs =>
      rw [hb] at h
      simp only [Res.plain, Res.ok.injEq, Prod.mk.injEq] at h
      obtain ⟨rfl, rfl, rfl, rfl⟩ := h
      obtain ⟨bs', h1, h2⟩ := book_again hw hL hb
      refine ⟨rfl, rfl, ?_, .transaction { flag := t.flag, payee := t.payee, narration := t.narration, postings := bs' }, ?_, ?_, Or.inl ⟨_, rfl, _, rfl⟩⟩
      · unfold State.book at hb
        cases hx : L.book d.date t.postings env.tolerance st.inventory (st.bookingFor env) with
        | error x => rw [hx] at hb; cases x <;> cases hb
        | ok r =>
          rw [hx] at hb
          dsimp only at hb
          cases hf : st.firstPostingError e 0 (r.interpolated.zip t.postings) with
          | err x => rw [hf] at hb; cases hb
          | panic => rw [hf] at hb; cases hb
          | ok u =>
            rw [hf] at hb
            dsimp only at hb
            cases hi : State.installInventory e st r.updated with
            | err x y => rw [hi] at hb; cases hb
            | panic => rw [hi] at hb; cases hb
            | ok st1 u1 =>
              rw [hi] at hb
              cases hb
              exact noPads_install hn hi
      · intro d' hd hv'
        simp only [State.directive, hv', variantWritten, State.transaction, hd, h1, Res.plain]
      · simp only [variantWritten, h2]
  | price p =>
    simp only [State.directive, hv, Res.ok.injEq, Prod.mk.injEq] at h
    obtain ⟨rfl, rfl, rfl, rfl⟩ := h
    exact ⟨rfl, rfl, hn, _, fun d' _ hv' => by simp only [State.directive, hv', variantWritten], rfl, Or.inr rfl⟩
  | balance b =>
    simp only [State.directive, hv] at h
    unfold State.balance at h
    dsimp only at h
    cases hg : st.getValidAccount b.acc e with
    | err x => rw [hg] at h; cases h
    | panic => rw [hg] at h; cases h
    | ok a =>
      have ha := getValid_pad hn hg
      rw [hg] at h
      dsimp only at h
      cases hc : a.validateCurrency b.cur e with
      | some x => rw [hc] at h; cases h
      | none =>
        rw [hc] at h
        dsimp only at h
        cases hm : calculateBalanceMargin b.units (effectiveTolerance env b) (st.totalRollupUnits env b.acc b.cur) with
        | none =>
          rw [hm] at h
          simp only [Res.ok.injEq, Prod.mk.injEq] at h
          obtain ⟨rfl, rfl, rfl, rfl⟩ := h
          refine ⟨rfl, rfl, noPads_set hn rfl, _, fun d' _ hv' => ?_, rfl, Or.inr rfl⟩
          simp only [State.directive, hv', variantWritten, State.balance, hg, hc, hm, hlen]
        | some m =>
          rw [hm, ha] at h
          simp only [Res.ok.injEq, Prod.mk.injEq] at h
          obtain ⟨rfl, rfl, rfl, rfl⟩ := h
          refine ⟨rfl, rfl, noPads_set hn rfl, _, fun d' _ hv' => ?_, rfl, Or.inr rfl⟩
          simp only [State.directive, hv', variantWritten, State.balance, hg, hc, hm, ha, hlen]
  | opn o =>
    simp only [State.directive, hv] at h
    cases ho : st.opn env o e with
    | err x y => rw [ho] at h; cases h
    | panic => rw [ho] at h; cases h
    | ok s1 v1 =>
      rw [ho] at h
      simp only [Res.plain, Res.ok.injEq, Prod.mk.injEq] at h
      obtain ⟨rfl, rfl, rfl, rfl⟩ := h
      have hk : v1 = .opn o ∧ NoPads s1 := by
        unfold State.opn at ho
        cases h1 : st.opened.get o.acc with
        | some x => rw [h1] at ho; cases ho
        | none =>
          rw [h1] at ho
          dsimp only at ho
          cases h2 : st.closed.get o.acc with
          | some x => rw [h2] at ho; cases ho
          | none =>
            rw [h2] at ho
            simp only [Res.ok.injEq] at ho
            obtain ⟨rfl, rfl⟩ := ho
            refine ⟨rfl, fun b y hy => ?_⟩
            rw [AMap.get_set] at hy
            split at hy
            · cases hy; rfl
            · exact hn b y hy
      obtain ⟨rfl, hk⟩ := hk
      exact ⟨rfl, rfl, hk, _, fun d' _ hv' => by simp only [State.directive, hv', variantWritten, ho, Res.plain], rfl, Or.inr rfl⟩
  | close c =>
    simp only [State.directive, hv] at h
    cases ho : st.close c e with
    | err x y => rw [ho] at h; cases h
    | panic => rw [ho] at h; cases h
    | ok s1 v1 =>
      rw [ho] at h
      simp only [Res.plain, Res.ok.injEq, Prod.mk.injEq] at h
      obtain ⟨rfl, rfl, rfl, rfl⟩ := h
      have hk : v1 = .close c ∧ NoPads s1 := by
        unfold State.close at ho
        cases h1 : st.opened.get c.acc with
        | none => rw [h1] at ho; cases ho
        | some x =>
          rw [h1] at ho
          dsimp only at ho
          cases h2 : st.closed.get c.acc with
          | some x => rw [h2] at ho; cases ho
          | none =>
            rw [h2] at ho
            simp only [Res.ok.injEq] at ho
            obtain ⟨rfl, rfl⟩ := ho
            exact ⟨rfl, hn⟩
      obtain ⟨rfl, hk⟩ := hk
      exact ⟨rfl, rfl, hk, _, fun d' _ hv' => by simp only [State.directive, hv', variantWritten, ho, Res.plain], rfl, Or.inr rfl⟩
  | commodity p =>
    simp only [State.directive, hv, Res.ok.injEq, Prod.mk.injEq] at h
    obtain ⟨rfl, rfl, rfl, rfl⟩ := h
    exact ⟨rfl, rfl, hn, _, fun d' _ hv' => by simp only [State.directive, hv', variantWritten], rfl, Or.inr rfl⟩
  | document p =>
    simp only [State.directive, hv, Res.ok.injEq, Prod.mk.injEq] at h
    obtain ⟨rfl, rfl, rfl, rfl⟩ := h
    exact ⟨rfl, rfl, hn, _, fun d' _ hv' => by simp only [State.directive, hv', variantWritten], rfl, Or.inr rfl⟩
  | note p =>
    simp only [State.directive, hv, Res.ok.injEq, Prod.mk.injEq] at h
    obtain ⟨rfl, rfl, rfl, rfl⟩ := h
    exact ⟨rfl, rfl, hn, _, fun d' _ hv' => by simp only [State.directive, hv', variantWritten], rfl, Or.inr rfl⟩
  | event p =>
    simp only [State.directive, hv, Res.ok.injEq, Prod.mk.injEq] at h
    obtain ⟨rfl, rfl, rfl, rfl⟩ := h
    exact ⟨rfl, rfl, hn, _, fun d' _ hv' => by simp only [State.directive, hv', variantWritten], rfl, Or.inr rfl⟩
  | query p =>
    simp only [State.directive, hv, Res.ok.injEq, Prod.mk.injEq] at h
    obtain ⟨rfl, rfl, rfl, rfl⟩ := h
    exact ⟨rfl, rfl, hn, _, fun d' _ hv' => by simp only [State.directive, hv', variantWritten], rfl, Or.inr rfl⟩
  | custom p =>
    simp only [State.directive, hv, Res.ok.injEq, Prod.mk.injEq] at h
    obtain ⟨rfl, rfl, rfl, rfl⟩ := h
    exact ⟨rfl, rfl, hn, _, fun d' _ hv' => by simp only [State.directive, hv', variantWritten], rfl, Or.inr rfl⟩

/-- One iteration again. -/
theorem step_again (hw : L.Lawful) (hL : Rebooks L) {env : Env L} {i : Nat} {d : Raw.Directive} {r r1 r' : Run L} (hn : NoPads r.st)
    (hp : ∀ p, d.variant ≠ .pad p) (h : r.step env i d = some r1) (he : r1.errors = [])
    (hst : r'.st = r.st) (hlen : r'.booked.length = r.booked.length) (he' : r'.errors = []) :
    NoPads r1.st ∧ r.errors = [] ∧ ∃ x x', r1.booked = r.booked ++ [x] ∧ asWritten x' = asWritten x ∧
      r'.step env i (asWritten x) = some { st := r1.st, booked := r'.booked ++ [x'], errors := [] } := by
  unfold Run.step at h
  dsimp only at h
  cases hd : r.st.directive env d { directive := i } r.booked with
  | err s x => rw [hd] at h; cases h; simp at he
  | panic => rw [hd] at h; cases h
  | ok s1 y =>
    obtain ⟨v, v2, b1⟩ := y
    rw [hd] at h
    dsimp only at h
    obtain ⟨rfl, rfl, hn1, v', hv', hw', hcase⟩ := directive_again hw hL hn hp hlen hd
    cases hb : balanceErrors s1 { directive := i } r.booked v with
    | none => rw [hb] at h; cases h
    | some errs =>
      rw [hb] at h
      cases h
      obtain ⟨h1, rfl⟩ := List.append_eq_nil_iff.1 he
      refine ⟨hn1, h1, mkBooked i d v, mkBooked i d v', by simp, ?_, ?_⟩
      · simp only [asWritten, mkBooked, hw']
      · have hb' : balanceErrors s1 { directive := i } r'.booked v' = some [] := by
          rcases hcase with ⟨t, rfl, t', rfl⟩ | rfl
          · rfl
          · cases v' with
            | balance bal =>
              simp only [balanceErrors] at hb ⊢
              cases hm : bal.margin with
              | none => rw [hm] at hb; exact hb
              | some m =>
                rw [hm] at hb
                dsimp only at hb
                split at hb
                · simp at hb
                · cases hb
            | _ => rfl
        unfold Run.step
        dsimp only
        rw [hst, hv' (asWritten (mkBooked i d v)) rfl rfl]
        dsimp only
        rw [hb', he']
        simp [mkBooked, asWritten]

/-- The loop again. -/
theorem loop_again (hw : L.Lawful) (hL : Rebooks L) {env : Env L} {l : List Raw.Directive} {i : Nat} {r r1 r' : Run L} (hn : NoPads r.st)
    (hp : ∀ d ∈ l, ∀ p, d.variant ≠ .pad p) (h : Run.loop env i l r = some r1) (he : r1.errors = [])
    (hst : r'.st = r.st) (hlen : r'.booked.length = r.booked.length) (he' : r'.errors = []) :
    NoPads r1.st ∧ ∃ t t', r1.booked = r.booked ++ t ∧ t'.map asWritten = t.map asWritten ∧
      Run.loop env i (t.map asWritten) r' = some { st := r1.st, booked := r'.booked ++ t', errors := [] } := by
  induction l generalizing i r r' with
  | nil =>
    cases h
    refine ⟨hn, [], [], by simp, rfl, ?_⟩
    obtain ⟨s, b, e⟩ := r'
    simp only [Run.loop, List.map_nil, List.append_nil] at hst he' ⊢
    subst hst he'
    rfl
  | cons d l ih =>
    simp only [Run.loop] at h
    cases hs : r.step env i d with
    | none => rw [hs] at h; cases h
    | some r2 =>
      rw [hs] at h
      dsimp only at h
      have he2 : r2.errors = [] := loop_errors h he
      obtain ⟨n1, -, x, x', e1, e2, e3⟩ := step_again hw hL hn (hp d (by simp)) hs he2 hst hlen he'
      obtain ⟨n2, t, t', f1, f2, f3⟩ := ih (r' := { st := r2.st, booked := r'.booked ++ [x'], errors := [] }) n1 (fun d hd => hp d (by simp [hd])) h rfl
        (by simp [e1, hlen]) rfl
      refine ⟨n2, x :: t, x' :: t', by rw [f1, e1, List.append_assoc]; rfl, by simp [e2, f2], ?_⟩
      simp only [List.map_cons, Run.loop, e3]
      rw [f3]
      simp
where
  loop_errors {l : List Raw.Directive} {i : Nat} {r r1 : Run L} (h : Run.loop env i l r = some r1) (he : r1.errors = []) : r.errors = [] := by
    induction l generalizing i r with
    | nil => cases h; exact he
    | cons d l ih =>
      simp only [Run.loop] at h
      cases hs : r.step env i d with
      | none => rw [hs] at h; cases h
      | some r2 =>
        rw [hs] at h
        have := ih h
        unfold Run.step at hs
        dsimp only at hs
        split at hs
        · split at hs
          · cases hs
          · cases hs
            exact (List.append_eq_nil_iff.1 this).1
        · cases hs
          exact (List.append_eq_nil_iff.1 this).1
        · cases hs

end
end Limabean
