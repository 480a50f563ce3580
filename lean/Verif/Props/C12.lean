/-
C12: a rejected transaction has no effect.
-/
import Verif.Props.C11
import Verif.Props.C14
import Verif.Props.C16

namespace Limabean

open Spec

variable {L : BookLib}

/-- Where a directive of the ledger without position `n` is found in the ledger with it. -/
def shiftAt (n i : Nat) : Nat := if i < n then i else i + 1

/-- Positions recorded in booked balances exist. -/
def UnusedInv (n : Nat) (bk : List Booked.Directive) : Prop :=
  ∀ d ∈ bk, ∀ b p, d.variant = .balance b → b.unusedPad = some p → p.directive < n

theorem UnusedInv.step {env : Env L} {n : Nat} {raw : Raw.Directive} {r r' : Run L}
    (hi : StInv n r.booked r.st) (h : UnusedInv n r.booked) (hs : r.step env n raw = some r') :
    UnusedInv (n + 1) r'.booked := by
  have old : ∀ d ∈ r.booked, ∀ b p, d.variant = .balance b → b.unusedPad = some p → p.directive < n + 1 :=
    fun d hd b p h1 h2 => Nat.lt_succ_of_lt (h d hd b p h1 h2)
  rcases Run.step_some hs with ⟨st', x, hd, rfl⟩ | ⟨st', v, v2, bk, errs, hd, hbe, rfl⟩
  · exact old
  · intro d hdm b p hb hp
    simp only [List.mem_append, List.mem_singleton] at hdm
    rcases State.directive_ok hd with ⟨t, hv', ht, rfl, rfl⟩ | ⟨b', hv', hbal, rfl⟩ | ⟨op, hv', ho, rfl, rfl⟩ |
        ⟨cl, hv', hc, rfl, rfl⟩ | ⟨q, v', hv', hpad, rfl, rfl⟩ | ⟨hpl, rfl, rfl, rfl⟩
    · obtain ⟨_, -, -, -, rfl⟩ := State.transaction_ok ht
      rcases hdm with (hdm | rfl) | hdm
      · exact old d hdm b p hb hp
      · simp [mkBooked] at hb
      · simp at hdm
    · obtain ⟨y, hop, hy, hcv, hcase⟩ := State.balance_ok hbal
      rcases hcase with ⟨-, rfl, rfl, rfl⟩ | ⟨m, -, hyp, rfl, rfl, rfl⟩ | ⟨m, i, e0, -, hyp, hf⟩
      · rcases hdm with (hdm | rfl) | hdm
        · exact old d hdm b p hb hp
        · simp only [mkBooked, Booked.Variant.balance.injEq] at hb
          subst hb
          simp only [Option.map_eq_some_iff] at hp
          obtain ⟨⟨j, u⟩, h1, rfl⟩ := hp
          exact Nat.lt_succ_of_lt (PadAt.loc hi (hi.pad _ _ _ _ hy h1)).2
        · simp at hdm
      · rcases hdm with (hdm | rfl) | hdm
        · exact old d hdm b p hb hp
        · simp only [mkBooked, Booked.Variant.balance.injEq] at hb
          subst hb
          simp at hp
        · simp at hdm
      · obtain ⟨d1, q, d2, t, src, h1, h2, h3, h4, rfl, h6, rfl, rfl⟩ := State.fillPad_ok hf
        rcases hdm with (hdm | rfl) | hdm
        · rcases List.mem_or_eq_of_mem_set hdm with hdm | rfl
          · exact old d hdm b p hb hp
          · simp [Booked.Directive.withPostings] at hb
        · simp only [mkBooked, Booked.Variant.balance.injEq] at hb
          subst hb
          simp at hp
        · simp at hdm
    · obtain ⟨-, -, rfl, -⟩ := State.opn_ok ho
      rcases hdm with (hdm | rfl) | hdm
      · exact old d hdm b p hb hp
      · simp [mkBooked] at hb
      · simp at hdm
    · obtain ⟨-, -, rfl, -⟩ := State.close_ok hc
      rcases hdm with (hdm | rfl) | hdm
      · exact old d hdm b p hb hp
      · simp [mkBooked] at hb
      · simp at hdm
    · obtain ⟨y, -, hy, hyp, rfl, rfl, rfl⟩ := State.pad_ok hpad
      rcases hdm with (hdm | rfl) | hdm
      · exact old d hdm b p hb hp
      · simp [mkBooked] at hb
      · simp only [Option.map_some, Option.toList_some, List.mem_singleton] at hdm
        subst hdm
        simp [mkBooked] at hb
    · rcases hdm with (hdm | rfl) | hdm
      · exact old d hdm b p hb hp
      · simp only [mkBooked] at hb
        subst hb
        cases hrv : raw.variant <;> simp [hrv, plainVariant] at hpl
      · simp at hdm

theorem UnusedInv.loop {env : Env L} {ds : List Raw.Directive} {r : Run L} (h : Run.loop env 0 ds {} = some r) :
    UnusedInv ds.length r.booked := by
  have := Run.loop_induction env (fun pre r => StInv pre.length r.booked r.st ∧ UnusedInv pre.length r.booked)
    ⟨StInv.init, by intro d h; simp at h⟩
    (fun pre raw r r' hp hs => ⟨by simpa using hp.1.step hs, by simpa using hp.2.step hp.1 hs⟩) h
  exact this.2

theorem AMap.mapV_congr {K V : Type} (g : V → V) (m : AMap K V) (h : ∀ kv ∈ m, g kv.2 = kv.2) : AMap.mapV g m = m := by
  unfold AMap.mapV
  conv => rhs; rw [← List.map_id m]
  apply List.map_congr_left
  intro x hx
  simp [h x hx]

/-- Renaming positions which do not occur changes nothing. -/
theorem rename_loop_eq {env : Env L} {ds : List Raw.Directive} {r : Run L} (h : Run.loop env 0 ds {} = some r)
    (f : Nat → Nat) (hf : ∀ i, i < ds.length → f i = i) : r.rename f = r := by
  have hi := StInv.loop h
  have hl := LocInv.loop h
  have hu := UnusedInv.loop h
  have he : ∀ e : ElementIdx, e.directive < ds.length → e.rename f = e := by
    intro e h; unfold ElementIdx.rename; rw [hf _ h]
  have hrep : ∀ l : List IndexedReport, (∀ rep ∈ l, ReportOk ds rep) → l.map (IndexedReport.rename f) = l := by
    intro l hl
    conv => rhs; rw [← List.map_id l]
    apply List.map_congr_left
    intro rep hr
    obtain ⟨h1, h2⟩ := hl rep hr
    obtain ⟨a, b, c, d⟩ := rep
    simp only [IndexedReport.rename, id, IndexedReport.mk.injEq, true_and, and_true]
    refine ⟨he _ h1.1, ?_⟩
    cases c with
    | none => rfl
    | some es =>
      simp only [Option.map_some, Option.some.injEq]
      conv => rhs; rw [← List.map_id es]
      apply List.map_congr_left
      intro e hes
      exact he _ (h2 e hes).1
  obtain ⟨⟨op, cl, ac, wa⟩, bk, er⟩ := r
  simp only [Run.rename, State.rename, Run.mk.injEq, State.mk.injEq]
  refine ⟨⟨?_, ?_, ?_, hrep _ hl.warnings⟩, ?_, hrep _ hl.errors⟩
  · apply AMap.mapV_congr
    rintro ⟨k, e⟩ hm
    exact he _ (hi.idxO k e (AMap.get_of_mem hi.wfO hm)).2
  · apply AMap.mapV_congr
    rintro ⟨k, e⟩ hm
    exact he _ (hi.idxC k e (AMap.get_of_mem hi.wfC hm)).2
  · apply AMap.mapV_congr
    rintro ⟨k, a⟩ hm
    have hg := AMap.get_of_mem hi.wfA hm
    have h1 := he _ (hi.idxA k a hg).2
    obtain ⟨al, po, op, pd, wi, bo⟩ := a
    simp only [Account.rename] at h1 ⊢
    rw [h1]
    cases pd with
    | none => rfl
    | some ie =>
      have := he _ (PadAt.loc hi (hi.pad _ _ ie.1 ie.2 hg rfl)).2
      simp [this]
  · conv => rhs; rw [← List.map_id bk]
    apply List.map_congr_left
    intro d hd
    have h1 := hf _ (hi.idxB d hd)
    have h2 := hu d hd
    obtain ⟨idx, date, tags, links, md, v⟩ := d
    simp only at h1
    simp only [Booked.Directive.rename, h1, id]
    cases v with
    | balance b =>
      obtain ⟨raw, up, mg⟩ := b
      cases up with
      | none => rfl
      | some p =>
        have := he p (h2 _ p rfl rfl)
        simp [Booked.Variant.rename, this]
    | _ => rfl

/-- A reported transaction leaves the state as it was. -/
theorem transaction_err_state (hL : L.Lawful) {env : Env L} {n : Nat} {bk : List Booked.Directive} {st st' : State L}
    (hi : StInv n bk st) {t : Raw.Transaction} {date : Date} {e : ElementIdx} {x : IndexedReport}
    (h : st.transaction env t date e = .err st' x) : st' = st := by
  rcases State.transaction_err h with ⟨rfl, -⟩ | ⟨rfl, -⟩ | ⟨q, hb, ⟨rfl, -⟩ | ⟨hf, hin⟩⟩
  · rfl
  · rfl
  · rfl
  · exfalso
    have hall : ∀ (i : Nat) (zs : List (Interpolated × Raw.PostingSpec)),
        st.firstPostingError e i zs = .ok () →
        ∀ z ∈ zs, st.opened.has z.2.acc = true ∧ ∃ a, st.accounts.get z.2.acc = some a := by
      intro i zs
      induction zs generalizing i with
      | nil => simp
      | cons z zs ih =>
        obtain ⟨ip, q⟩ := z
        intro h
        simp only [State.firstPostingError] at h
        cases hva : st.validateAccountAndCurrency q.acc ip.currency { directive := e.directive, posting := some i } with
        | err x => simp [hva] at h
        | panic => simp [hva] at h
        | ok u =>
          simp only [hva] at h
          intro z hz
          rcases List.mem_cons.1 hz with rfl | hz
          · unfold State.validateAccountAndCurrency at hva
            cases hga : st.getValidAccount q.acc { directive := e.directive, posting := some i } with
            | ok a => exact ⟨(State.getValidAccount_ok.1 hga).1, a, (State.getValidAccount_ok.1 hga).2⟩
            | err x => simp [hga] at hva
            | panic => simp [hga] at hva
          · exact ih _ h z hz
    have hlen := hL.book_length _ _ _ _ _ _ hb
    obtain ⟨st2, hst2⟩ := State.installInventory_total (e := e) (us := q.updated) (st := st) (by
      rintro ⟨a, pos⟩ hu
      obtain ⟨p, hp, rfl⟩ := hL.book_accounts _ _ _ _ _ _ hb _ _ hu
      obtain ⟨j, hj, rfl⟩ := List.getElem_of_mem hp
      have hjz : j < (q.interpolated.zip t.postings).length := by simp; omega
      have hmem := List.getElem_mem hjz
      rw [List.getElem_zip] at hmem
      exact hall 0 _ hf _ hmem)
    rw [hst2] at hin
    cases hin

/-- What a run of the loop leaves behind, with or without a rejected transaction. -/
theorem loop_without (hL : L.Lawful) {order : AMap Str (Account L) → AMap Str (Account L)} (hf : ∀ m, (order m).Perm m)
    {o : BookOptions} {ds1 ds2 : List Raw.Directive} {raw : Raw.Directive} {t : Raw.Transaction}
    (hv : raw.variant = .transaction t) {es : List IndexedReport} {rep : IndexedReport}
    (h1 : errorsOf L order o ds1 = some es) (h2 : errorsOf L order o (ds1 ++ [raw]) = some (es ++ [rep])) :
    ∃ tail : Option (Run L),
      Run.loop (envOf L o order) 0 (ds1 ++ ds2) {} = tail.map (Run.after es) ∧
      Run.loop (envOf L o order) 0 (ds1 ++ raw :: ds2) {} =
        tail.map fun r => (r.rename (shiftAt ds1.length)).after (es ++ [rep]) := by
  obtain ⟨r1, hl1, he1⟩ := errorsOf_some (by rw [h1]; simp : errorsOf L order o ds1 ≠ none)
  rw [he1] at h1
  cases h1
  have hst : r1.step (envOf L o order) ds1.length raw = some (r1.after [] |> fun r => { r with errors := r1.errors ++ [rep] }) := by
    obtain ⟨r2, hl2, he2⟩ := errorsOf_some (by rw [h2]; simp : errorsOf L order o (ds1 ++ [raw]) ≠ none)
    rw [he2] at h2
    obtain ⟨r1', hl1', hs⟩ := Run.loop_snoc.1 hl2
    rw [hl1] at hl1'
    cases hl1'
    rw [Nat.zero_add] at hs
    rw [hs]
    rcases Run.step_some hs with ⟨st', x, hd, rfl⟩ | ⟨st', v, v2, bk, errs, hd, hbe, rfl⟩
    · rcases State.directive_err hd with ⟨t', hv', ht⟩ | ⟨b', hv', -⟩ | ⟨o', hv', -⟩ | ⟨c, hv', -⟩ | ⟨p', hv', -⟩ <;>
        rw [hv] at hv' <;> cases hv'
      rw [transaction_err_state hL (StInv.loop hl1) ht]
      simp only [Option.some.injEq, List.append_cancel_left_eq, List.cons.injEq, and_true] at h2
      simp [h2, Run.after]
    · exfalso
      simp only [Option.some.injEq, List.append_cancel_left_eq] at h2
      subst h2
      rcases State.directive_ok hd with ⟨t', hv', ht, -⟩ | ⟨b, hv', -⟩ | ⟨op, hv', -⟩ |
          ⟨cl, hv', -⟩ | ⟨p', v', hv', -⟩ | ⟨hpl, -⟩
      · obtain ⟨_, -, -, -, rfl⟩ := State.transaction_ok ht
        simp [balanceErrors] at hbe
      · rw [hv] at hv'; cases hv'
      · rw [hv] at hv'; cases hv'
      · rw [hv] at hv'; cases hv'
      · rw [hv] at hv'; cases hv'
      · rw [hv] at hpl; simp [plainVariant] at hpl
  -- the run after the first part, without its reports
  have hren : r1.rename (shiftAt ds1.length) = r1 := rename_loop_eq hl1 _ (by
    intro i hi; simp [shiftAt, hi])
  let r0 : Run L := { r1 with errors := [] }
  have hr0 : r0.rename (shiftAt ds1.length) = r0 := by
    have : Run.rename (shiftAt ds1.length) r0 = { Run.rename (shiftAt ds1.length) r1 with errors := [] } := rfl
    rw [this, hren]
  have he : SameEnv (envOf L o order) (envOf L o order) := ⟨rfl, rfl, hf, hf⟩
  refine ⟨Run.loop (envOf L o order) ds1.length ds2 r0, ?_, ?_⟩
  · rw [Run.loop_append, hl1]
    have : r1 = r0.after r1.errors := by simp [r0, Run.after]
    rw [Option.bind_some, Nat.zero_add]
    conv => lhs; rw [this]
    exact Run.after_loop _ _ _ _
  · rw [Run.loop_append, hl1, Option.bind_some, Nat.zero_add]
    simp only [Run.loop, hst]
    have hr : ({ r1.after [] with errors := r1.errors ++ [rep] } : Run L) =
        (r0.rename (shiftAt ds1.length)).after (r1.errors ++ [rep]) := by
      rw [hr0]; simp [r0, Run.after]
    rw [hr, Run.after_loop]
    rw [Run.rename_loop (shiftAt ds1.length) he ds1.length (ds1.length + 1) (by intro k; simp [shiftAt]; omega)]
    cases Run.loop (envOf L o order) ds1.length ds2 r0 <;> rfl

/-- The error reports of an outcome. -/
def Outcome.reports : Outcome → List IndexedReport
  | .failure es => es
  | _ => []

/-- C12: if a transaction is reported, then the ledger with it gives the same reports as the ledger without it, up to
directive positions, and this one report. -/
theorem C12_same_reports (L : BookLib) (hL : L.Lawful) (order : AMap Str (Account L) → AMap Str (Account L))
    (hf : ∀ m, (order m).Perm m) (o : BookOptions) (ds1 ds2 : List Raw.Directive) (raw : Raw.Directive)
    (t : Raw.Transaction) (hv : raw.variant = .transaction t) (es : List IndexedReport) (rep : IndexedReport)
    (h1 : errorsOf L order o ds1 = some es) (h2 : errorsOf L order o (ds1 ++ [raw]) = some (es ++ [rep])) :
    (book L order o (ds1 ++ raw :: ds2) = .panic ↔ book L order o (ds1 ++ ds2) = .panic) ∧
    (book L order o (ds1 ++ ds2) ≠ .panic →
      (book L order o (ds1 ++ raw :: ds2)).reports.Perm
        (rep :: (book L order o (ds1 ++ ds2)).reports.map (IndexedReport.rename (shiftAt ds1.length)))) := by
  obtain ⟨tail, ht1, ht2⟩ := loop_without hL hf (ds2 := ds2) hv h1 h2
  have hes : es.map (IndexedReport.rename (shiftAt ds1.length)) = es := by
    obtain ⟨r1, hl1, he1⟩ := errorsOf_some (by rw [h1]; simp : errorsOf L order o ds1 ≠ none)
    rw [h1] at he1
    cases he1
    have := rename_loop_eq hl1 (shiftAt ds1.length) (by intro i hi; simp [shiftAt, hi])
    exact congrArg Run.errors this
  unfold book collect
  rw [ht1, ht2]
  cases tail with
  | none => simp
  | some r =>
    have hval : ∀ (r : Run L), (Run.validate (envOf L o order) r).reports = r.errors ++ r.st.leftOverPads (envOf L o order) ∧
        Run.validate (envOf L o order) r ≠ .panic := by
      intro r
      unfold Run.validate
      simp only
      split
      · rename_i h
        rw [List.isEmpty_iff] at h
        exact ⟨by rw [h]; rfl, by simp⟩
      · exact ⟨rfl, by simp⟩
    simp only [Option.map_some]
    refine ⟨by simp [(hval _).2], ?_⟩
    intro _
    rw [(hval _).1, (hval _).1]
    simp only [Run.after, List.map_append, hes, Run.rename]
    have hlo : (State.leftOverPads (envOf L o order) (State.rename (shiftAt ds1.length) r.st)).Perm
        ((r.st.leftOverPads (envOf L o order)).map (IndexedReport.rename (shiftAt ds1.length))) := by
      unfold State.leftOverPads
      refine ((hf _).filterMap _).trans ?_
      refine List.Perm.trans ?_ (((hf _).symm.filterMap _).map _)
      apply List.Perm.of_eq
      simp only [State.rename, AMap.mapV]
      induction r.st.accounts with
      | nil => rfl
      | cons ka m ih =>
        obtain ⟨k, al, po, op, pd, wi, bo⟩ := ka
        simp only [List.map_cons]
        cases pd with
        | none =>
          rw [List.filterMap_cons_none (by rfl), List.filterMap_cons_none (by rfl)]
          exact ih
        | some ie =>
          rw [List.filterMap_cons_some (b := (ie.2.rename (shiftAt ds1.length)).report .unusedNoBalance) (by rfl),
            List.filterMap_cons_some (b := ie.2.report .unusedNoBalance) (by rfl), List.map_cons, ih,
            ElementIdx.rename_report]
    simp only [List.append_assoc, List.singleton_append]
    refine List.perm_middle.trans ?_
    exact List.Perm.cons _ (List.Perm.append_left _ (List.Perm.append_left _ hlo))

/-- C12: and the booked directives are the same, up to directive positions, as are the holdings of all accounts. -/
theorem C12_same_effect (L : BookLib) (hL : L.Lawful) (order : AMap Str (Account L) → AMap Str (Account L))
    (hf : ∀ m, (order m).Perm m) (o : BookOptions) (ds1 ds2 : List Raw.Directive) (raw : Raw.Directive)
    (t : Raw.Transaction) (hv : raw.variant = .transaction t) (es : List IndexedReport) (rep : IndexedReport)
    (h1 : errorsOf L order o ds1 = some es) (h2 : errorsOf L order o (ds1 ++ [raw]) = some (es ++ [rep]))
    (r : Run L) (h : Run.loop (envOf L o order) 0 (ds1 ++ ds2) {} = some r) :
    ∃ r', Run.loop (envOf L o order) 0 (ds1 ++ raw :: ds2) {} = some r' ∧
      r'.booked = r.booked.map (Booked.Directive.rename (shiftAt ds1.length)) ∧ r'.st.inventory = r.st.inventory := by
  obtain ⟨tail, ht1, ht2⟩ := loop_without hL hf (ds2 := ds2) hv h1 h2
  rw [ht1] at h
  cases tail with
  | none => simp at h
  | some r0 =>
    simp only [Option.map_some, Option.some.injEq] at h ht2
    subst h
    exact ⟨_, ht2, rfl, State.rename_inventory _ _⟩

/-- A case: a transaction on an account which is not open, before a failing balance. -/
example : (book Toy.lib id {} [Toy.mkOpen 1 Ex.bank, Toy.mkTxn 2 [(Ex.bank, ⟨1, 0⟩, Ex.nzd), (Ex.food, ⟨-1, 0⟩, Ex.nzd)],
      Toy.mkBal 3 Ex.bank ⟨1, 0⟩ Ex.nzd]).reports.Perm
    ((ElementIdx.report { directive := 1, posting := some 1 } .accountNotOpen) ::
      (book Toy.lib id {} [Toy.mkOpen 1 Ex.bank, Toy.mkBal 3 Ex.bank ⟨1, 0⟩ Ex.nzd]).reports.map
        (IndexedReport.rename (shiftAt 1))) :=
  (C12_same_reports Toy.lib Toy.lib_lawful id Ex.fair_id {} [Toy.mkOpen 1 Ex.bank] [Toy.mkBal 3 Ex.bank ⟨1, 0⟩ Ex.nzd]
    (Toy.mkTxn 2 [(Ex.bank, ⟨1, 0⟩, Ex.nzd), (Ex.food, ⟨-1, 0⟩, Ex.nzd)]) _ rfl []
    (ElementIdx.report { directive := 1, posting := some 1 } .accountNotOpen) (by decide +kernel) (by decide +kernel)).2
    (by decide +kernel)

end Limabean
