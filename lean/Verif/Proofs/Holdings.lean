/-
Holdings of the accumulator against the postings of the booked directives.
-/
import Verif.Proofs.Invariant
import Verif.Proofs.Accounts
import Mathlib.Algebra.BigOperators.Group.Finset.Basic
import Mathlib.Algebra.BigOperators.Group.Finset.Piecewise
import Mathlib.Algebra.BigOperators.Group.List.Basic

namespace Limabean

open Spec

variable {L : BookLib}

/-! ### Sums of postings -/

theorem sumUnits_nil (sel : Booked.Posting → Bool) : sumUnits sel [] = 0 := by simp [sumUnits, postings]

theorem sumUnits_append (sel : Booked.Posting → Bool) (a b : List Booked.Directive) :
    sumUnits sel (a ++ b) = sumUnits sel a + sumUnits sel b := by
  simp [sumUnits, postings]

/-- Sum over a list of postings. -/
def sumP (sel : Booked.Posting → Bool) (ps : List Booked.Posting) : ℚ :=
  ((ps.filter sel).map fun p => p.units.val).sum

theorem sumP_nil (sel : Booked.Posting → Bool) : sumP sel [] = 0 := rfl

theorem sumP_cons (sel : Booked.Posting → Bool) (p : Booked.Posting) (ps : List Booked.Posting) :
    sumP sel (p :: ps) = (if sel p then p.units.val else 0) + sumP sel ps := by
  unfold sumP
  cases h : sel p <;> simp [h]

theorem sumP_append (sel : Booked.Posting → Bool) (a b : List Booked.Posting) :
    sumP sel (a ++ b) = sumP sel a + sumP sel b := by
  simp [sumP]

theorem sumUnits_cons (sel : Booked.Posting → Bool) (d : Booked.Directive) (ds : List Booked.Directive) :
    sumUnits sel (d :: ds) = sumP sel (postingsOf d) + sumUnits sel ds := by
  simp [sumUnits, sumP, postings]

theorem sumUnits_single (sel : Booked.Posting → Bool) (d : Booked.Directive) :
    sumUnits sel [d] = sumP sel (postingsOf d) := by
  simp [sumUnits_cons, sumUnits_nil]

theorem sumUnits_set (sel : Booked.Posting → Bool) {ds : List Booked.Directive} {i : Nat} {d : Booked.Directive}
    (h : ds[i]? = some d) (d' : Booked.Directive) :
    sumUnits sel (ds.set i d') = sumUnits sel ds - sumP sel (postingsOf d) + sumP sel (postingsOf d') := by
  induction ds generalizing i with
  | nil => simp at h
  | cons x ds ih =>
    cases i with
    | zero =>
      simp only [List.getElem?_cons_zero, Option.some.injEq] at h
      subst h
      simp only [List.set_cons_zero, sumUnits_cons]
      ring
    | succ i =>
      simp only [List.getElem?_cons_succ] at h
      simp only [List.set_cons_succ, sumUnits_cons, ih h]
      ring

/-! ### Holdings -/

/-- Units of a currency held by the accounts which are selected. -/
def State.held (st : State L) (S : Str → Bool) (c : Str) : ℚ :=
  (st.accounts.map fun ka => if S ka.1 then (L.units ka.2.positions c).val else 0).sum

theorem State.held_eq_filter (st : State L) (S : Str → Bool) (c : Str) :
    st.held S c = ((st.accounts.filter fun ca => S ca.1).map fun ca => (L.units ca.2.positions c).val).sum := by
  unfold State.held
  induction st.accounts with
  | nil => rfl
  | cons ka m ih =>
    by_cases h : S ka.1 = true <;> simp [h, ih]

theorem State.held_set {st : State L} {k : Str} {a a' : Account L} (h : st.accounts.get k = some a) (S : Str → Bool)
    (c : Str) : (st.setAccount k a').held S c =
      st.held S c + if S k then (L.units a'.positions c).val - (L.units a.positions c).val else 0 := by
  unfold State.held State.setAccount
  simp only
  rw [AMap.sum_set _ _ a _ h]
  cases S k <;> simp; ring

theorem State.held_same {st : State L} {k : Str} {a a' : Account L} (h : st.accounts.get k = some a) (S : Str → Bool)
    (c : Str) (hp : a'.positions = a.positions) : (st.setAccount k a').held S c = st.held S c := by
  rw [State.held_set h, hp]; simp

/-- The total of the server, as a sum of rationals over the accounts below. -/
theorem State.totalRollupUnits_val {env : Env L} (hf : env.Fair) (st : State L) (base cur : Str) :
    (st.totalRollupUnits env base cur).val = st.held (fun a => Below base a) cur := by
  unfold State.totalRollupUnits State.held
  rw [Dec.sum_perm ((hf st.accounts).filter _ |>.map _)]
  simp only [Dec.val_sum, List.map_map]
  induction st.accounts with
  | nil => simp
  | cons ka m ih =>
    simp only [List.filter_cons, sub_eq_decide] at ih ⊢
    split
    · rename_i hb
      simp only [List.map_cons, List.sum_cons, ih, Function.comp]
      simp only [hb, if_true]
    · rename_i hb
      simp only [List.map_cons, List.sum_cons, ih]
      simp [hb]

/-! ### Transactions -/

/-- The sum of zipped interpolated postings which are selected. -/
def zipChange (S : Str → Bool) (c : Str) : List Raw.PostingSpec → List Interpolated → ℚ
  | p :: ps, i :: is => (if S p.acc = true ∧ i.currency = c then i.lotUnits else 0) + zipChange S c ps is
  | _, _ => 0

theorem zipChange_eq (S : Str → Bool) (c : Str) (K : Finset Str) (ps : List Raw.PostingSpec) (is : List Interpolated)
    (hK : ∀ p ∈ ps, p.acc ∈ K) :
    zipChange S c ps is = ∑ a ∈ K, if S a then postingsChange a c ps is else 0 := by
  induction ps generalizing is with
  | nil => simp [zipChange, postingsChange]
  | cons p ps ih =>
    cases is with
    | nil => simp [zipChange, postingsChange]
    | cons i is =>
      have h1 := ih is (fun q hq => hK q (List.mem_cons_of_mem _ hq))
      have hp : p.acc ∈ K := hK p (by simp)
      simp only [zipChange, postingsChange, h1]
      have : ∀ a, (if S a = true then (if p.acc = a ∧ i.currency = c then i.lotUnits else 0) + postingsChange a c ps is else 0)
          = (if a = p.acc then (if S p.acc = true ∧ i.currency = c then i.lotUnits else 0) else 0)
            + (if S a = true then postingsChange a c ps is else 0) := by
        intro a
        by_cases ha : a = p.acc
        · subst ha
          by_cases hS : S p.acc <;> simp [hS]
        · have ha' : ¬ p.acc = a := fun e => ha e.symm
          simp [ha, ha']
      simp only [this, Finset.sum_add_distrib, Finset.sum_ite_eq', hp, if_true]

/-- Sum over the updated accounts. -/
theorem zipChange_updated (hL : L.Lawful) {d : Date} {ps : List Raw.PostingSpec} {t : Tolerance}
    {inv : Str → Option L.Pos} {bk : Str → Booking} {r : Bookings L.Pos} (h : L.book d ps t inv bk = .ok r)
    (S : Str → Bool) (c : Str) :
    zipChange S c ps r.interpolated =
      (r.updated.map fun aq => if S aq.1 then postingsChange aq.1 c ps r.interpolated else 0).sum := by
  classical
  have hnd := hL.book_nodup _ _ _ _ _ _ h
  set K := (r.updated.map Prod.fst).toFinset with hKdef
  set K' := K ∪ (ps.map fun p => p.acc).toFinset with hK'
  rw [zipChange_eq S c K' ps r.interpolated (by
    intro p hp
    rw [hK', Finset.mem_union]
    right
    rw [List.mem_toFinset]
    exact List.mem_map_of_mem hp)]
  have hsub : K ⊆ K' := Finset.subset_union_left
  rw [← Finset.sum_subset hsub]
  · rw [hKdef, List.sum_toFinset _ hnd, List.map_map]
    rfl
  · intro a _ ha
    have : ∀ q, (a, q) ∉ r.updated := by
      intro q hq
      apply ha
      rw [hKdef, List.mem_toFinset]
      exact List.mem_map.2 ⟨(a, q), hq, rfl⟩
    rw [hL.book_not_updated _ _ _ _ _ _ h a this c]
    simp

theorem State.inventory_setAccount_ne {st : State L} {k k' : Str} {a : Account L} (h : k ≠ k') :
    (st.setAccount k a).inventory k' = st.inventory k' := by
  simp [State.inventory, State.setAccount, AMap.get_set, h]

theorem State.installInventory_held {e : ElementIdx} {us : List (Str × L.Pos)} {st st' : State L}
    (hn : (us.map Prod.fst).Nodup) (h : State.installInventory e st us = .ok st' ()) (S : Str → Bool) (c : Str) :
    st'.held S c = st.held S c + (us.map fun aq => if S aq.1 then
      (L.units aq.2 c).val - (L.units ((st.inventory aq.1).getD L.empty) c).val else 0).sum := by
  induction us generalizing st with
  | nil =>
    simp only [State.installInventory, Res.ok.injEq, and_true] at h
    subst h; simp
  | cons u us ih =>
    obtain ⟨acc, pos⟩ := u
    simp only [State.installInventory] at h
    cases hg : st.getValidAccount acc e with
    | err x => simp [hg] at h
    | panic => simp [hg] at h
    | ok a =>
      simp only [hg] at h
      simp only [List.map_cons, List.nodup_cons] at hn
      have hga := (State.getValidAccount_ok.1 hg).2
      have hinv : st.inventory acc = some a.positions := by simp [State.inventory, hga]
      rw [ih hn.2 h, State.held_set hga]
      simp only [List.map_cons, List.sum_cons, hinv, Option.getD_some]
      have : (us.map fun aq => if S aq.1 = true then (L.units aq.2 c).val -
            (L.units (((st.setAccount acc { a with positions := pos }).inventory aq.1).getD L.empty) c).val else 0)
          = (us.map fun aq => if S aq.1 = true then (L.units aq.2 c).val -
            (L.units ((st.inventory aq.1).getD L.empty) c).val else 0) := by
        apply List.map_congr_left
        intro aq haq
        have hne : acc ≠ aq.1 := by
          intro hc
          apply hn.1
          rw [hc]
          exact List.mem_map_of_mem haq
        rw [State.inventory_setAccount_ne hne]
      rw [this]
      ring

theorem sumP_bookedPostingsOf (S : Str → Bool) (c : Str) (i : Nat) (ip : Interpolated) (p : Raw.PostingSpec) :
    sumP (fun q => S q.acc ∧ q.cur = c) (bookedPostingsOf i ip p) =
      if S p.acc = true ∧ ip.currency = c then ip.lotUnits else 0 := by
  unfold bookedPostingsOf Interpolated.lotUnits
  cases ip.cost with
  | none => simp [sumP_cons, sumP_nil]
  | some lots =>
    simp only
    induction lots with
    | nil => simp [sumP_nil]
    | cons l lots ih =>
      simp only [List.map_cons, sumP_cons, ih, List.sum_cons]
      by_cases hS : S p.acc = true ∧ ip.currency = c <;> simp [hS]

theorem sumP_bookedPostings (S : Str → Bool) (c : Str) (i : Nat) (is : List Interpolated) (ps : List Raw.PostingSpec) :
    sumP (fun q => S q.acc ∧ q.cur = c) (bookedPostings i (is.zip ps)) = zipChange S c ps is := by
  induction is generalizing i ps with
  | nil => cases ps <;> simp [bookedPostings, zipChange, sumP_nil]
  | cons ip is ih =>
    cases ps with
    | nil => simp [bookedPostings, zipChange, sumP_nil]
    | cons p ps =>
      simp only [List.zip_cons_cons, bookedPostings, sumP_append, ih, sumP_bookedPostingsOf, zipChange]

/-- A booked transaction moves holdings by its postings. -/
theorem State.transaction_held (hL : L.Lawful) {env : Env L} {st st' : State L} {t : Raw.Transaction} {date : Date}
    {e : ElementIdx} {v : Booked.Variant} (h : st.transaction env t date e = .ok st' v) (n : Nat) (raw : Raw.Directive)
    (S : Str → Bool) (c : Str) :
    st'.held S c = st.held S c + sumP (fun q => S q.acc ∧ q.cur = c) (postingsOf (mkBooked n raw v)) := by
  obtain ⟨r, hb, -, hi, rfl⟩ := State.transaction_ok h
  rw [State.installInventory_held (hL.book_nodup _ _ _ _ _ _ hb) hi S c]
  simp only [mkBooked, postingsOf, sumP_bookedPostings, zipChange_updated hL hb]
  congr 2
  apply List.map_congr_left
  intro aq haq
  rw [hL.book_updated _ _ _ _ _ _ hb aq.1 aq.2 haq c]
  simp

/-! ### The invariant -/

theorem held_init (S : Str → Bool) (c : Str) : ({} : State L).held S c = 0 := by simp [State.held]

theorem balanceErrors_nil {st : State L} {e : ElementIdx} {bk : List Booked.Directive} {b : Booked.Balance}
    (h : balanceErrors st e bk (.balance b) = some []) : b.unusedPad = none ∧ b.margin = none := by
  unfold balanceErrors at h
  cases hu : b.unusedPad with
  | none =>
    cases hm : b.margin with
    | none => simp
    | some m =>
      simp only [hu, hm] at h
      split at h <;> simp at h
  | some p =>
    cases hm : b.margin with
    | none => simp [hu, hm] at h
    | some m =>
      simp only [hu, hm] at h
      split at h <;> simp at h

theorem State.plain_postings {v : Booked.Variant} {w : Raw.Variant} (h : plainVariant w = some v) (n : Nat)
    (raw : Raw.Directive) : postingsOf (mkBooked n raw v) = [] := by
  cases w <;> simp [plainVariant] at h <;> subst h <;> rfl

/-- A step which reports nothing keeps holdings equal to postings. -/
theorem held_step (hL : L.Lawful) {n : Nat} {env : Env L} {raw : Raw.Directive} {r r' : Run L}
    (hi : StInv n r.booked r.st) (hs : r.step env n raw = some r') (he : r'.errors = r.errors)
    (S : Str → Bool) (c : Str)
    (h : r.st.held S c = sumUnits (fun q => S q.acc ∧ q.cur = c) r.booked) :
    r'.st.held S c = sumUnits (fun q => S q.acc ∧ q.cur = c) r'.booked := by
  rcases Run.step_some hs with ⟨st', x, hd, rfl⟩ | ⟨st', v, v2, bk, errs, hd, hbe, rfl⟩
  · simp at he
  · replace he : errs = [] := by simpa using he
    subst he
    simp only
    rcases State.directive_ok hd with ⟨t, -, ht, rfl, rfl⟩ | ⟨b, -, hb, rfl⟩ | ⟨o, -, ho, rfl, rfl⟩ |
      ⟨cl, -, hc, rfl, rfl⟩ | ⟨p, v', -, hp, rfl, rfl⟩ | ⟨hpl, rfl, rfl, rfl⟩
    · simp only [Option.map_none, Option.toList_none, List.append_nil, sumUnits_append, sumUnits_single]
      rw [State.transaction_held hL ht n raw S c, h]
    · simp only [Option.map_none, Option.toList_none, List.append_nil, sumUnits_append, sumUnits_single]
      obtain ⟨a, ho, ha, hcv, hcase⟩ := State.balance_ok hb
      rcases hcase with ⟨hm, rfl, rfl, rfl⟩ | ⟨m, hm, hp, rfl, rfl, rfl⟩ | ⟨m, i, e0, hm, hp, hf⟩
      · rw [State.held_same ha S c (by rfl), h]
        simp [postingsOf, mkBooked, sumP_nil]
      · have := balanceErrors_nil hbe
        simp at this
      · obtain ⟨d, p, d2, t, src, h1, h2, h3, h4, rfl, h6, rfl, rfl⟩ := State.fillPad_ok hf
        obtain ⟨f, q, f2, u, g1, g2, g3, g4, g5, g6, g7, g8⟩ := hi.pad _ _ _ _ ha hp
        rw [h3] at g5; cases g5
        rw [h4] at g6; cases g6
        rw [State.held_set h6, State.resetTo, State.held_set ha, h, sumUnits_set _ h3]
        simp only [Account.adjustSubtract, Account.adjustAdd, Account.advance, hL.units_accumulate]
        simp only [postingsOf, h4, g7, mkBooked, Booked.Directive.withPostings, calculateBalancePadPostings,
          sumP_cons, sumP_nil, Dec.val_neg]
        by_cases hc : c = b.cur
        · subst hc
          by_cases hS1 : S b.acc = true <;> by_cases hS2 : S p.source = true <;> simp [hS1, hS2]
        · have hc' : ¬ b.cur = c := fun e => hc e.symm
          by_cases hS1 : S b.acc = true <;> by_cases hS2 : S p.source = true <;> simp [hS1, hS2, hc, hc']
    · obtain ⟨h1, h2, rfl, h3, h4, h5⟩ := State.opn_ok ho
      simp only [Option.map_none, Option.toList_none, List.append_nil, sumUnits_append, sumUnits_single]
      have hnone : r.st.accounts.get o.acc = none := by
        cases hx : r.st.accounts.get o.acc with
        | none => rfl
        | some x =>
          rcases hi.acc _ x hx with ⟨e, he⟩ | ⟨e, he⟩
          · simp [h1] at he
          · simp [h2] at he
      have : st'.held S c = r.st.held S c := by
        unfold State.held
        rw [h5, AMap.sum_set_new _ _ _ hnone]
        simp [Account.new, hL.units_empty]
      rw [this, h]
      simp [postingsOf, mkBooked, sumP_nil]
    · obtain ⟨-, -, rfl, rfl⟩ := State.close_ok hc
      simp only [Option.map_none, Option.toList_none, List.append_nil, sumUnits_append, sumUnits_single]
      have : ({ r.st with opened := r.st.opened.del cl.acc, closed := r.st.closed.set cl.acc { directive := n } } :
          State L).held S c = r.st.held S c := rfl
      rw [this, h]
      simp [postingsOf, mkBooked, sumP_nil]
    · obtain ⟨a, -, ha, -, rfl, rfl, rfl⟩ := State.pad_ok hp
      rw [State.held_same ha S c (by rfl), h]
      simp [sumUnits_append, sumUnits_single, sumUnits_cons, sumUnits_nil, postingsOf, mkBooked, sumP_nil]
    · simp only [Option.map_none, Option.toList_none, List.append_nil, sumUnits_append, sumUnits_single,
        State.plain_postings hpl, sumP_nil, add_zero]
      exact h

theorem step_errors {n : Nat} {env : Env L} {raw : Raw.Directive} {r r' : Run L} (hs : r.step env n raw = some r') :
    ∃ es, r'.errors = r.errors ++ es := by
  rcases Run.step_some hs with ⟨st', x, hd, rfl⟩ | ⟨st', v, v2, bk, errs, hd, hbe, rfl⟩
  · exact ⟨[x], rfl⟩
  · exact ⟨errs, rfl⟩

/-- A run without reports has holdings equal to the postings of the booked directives. -/
theorem held_loop (hL : L.Lawful) {env : Env L} {ds : List Raw.Directive} {r : Run L}
    (h : Run.loop env 0 ds {} = some r) (he : r.errors = []) (S : Str → Bool) (c : Str) :
    r.st.held S c = sumUnits (fun q => S q.acc ∧ q.cur = c) r.booked := by
  have := Run.loop_induction env (fun pre r => StInv pre.length r.booked r.st ∧
    (r.errors = [] → r.st.held S c = sumUnits (fun q => S q.acc ∧ q.cur = c) r.booked))
    ⟨StInv.init, fun _ => by simp [held_init, sumUnits_nil]⟩ (by
      intro pre raw r r' hp hs
      refine ⟨by simpa using hp.1.step hs, ?_⟩
      intro he
      obtain ⟨es, hes⟩ := step_errors hs
      rw [he] at hes
      have h0 : r.errors = [] := by
        cases hr : r.errors with
        | nil => rfl
        | cons a l => simp [hr] at hes
      exact held_step hL hp.1 hs (by rw [he, h0]) S c (hp.2 h0)) h
  exact this.2 he

end Limabean
