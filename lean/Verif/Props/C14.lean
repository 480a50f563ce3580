/-
C14: error locations exist.
-/
import Verif.Proofs.Errors
import Verif.Props.Examples

namespace Limabean

open Spec

/-- A location names a directive of the input, and if it names a posting, that directive is a transaction with a posting
there. -/
def LocOk (ds : List Raw.Directive) (e : ElementIdx) : Prop :=
  e.directive < ds.length ∧
  ∀ i, e.posting = some i → ∃ raw t, ds[e.directive]? = some raw ∧ raw.variant = .transaction t ∧ i < t.postings.length

/-- All locations of a report exist. -/
def ReportOk (ds : List Raw.Directive) (rep : IndexedReport) : Prop :=
  LocOk ds rep.idx ∧ ∀ e ∈ rep.related.getD [], LocOk ds e

variable {L : BookLib}

theorem LocOk.snoc {ds : List Raw.Directive} {e : ElementIdx} (h : LocOk ds e) (raw : Raw.Directive) :
    LocOk (ds ++ [raw]) e := by
  refine ⟨by simp; have := h.1; omega, ?_⟩
  intro i hi
  obtain ⟨raw', t, h1, h2⟩ := h.2 i hi
  exact ⟨raw', t, by rw [List.getElem?_append_left h.1]; exact h1, h2⟩

theorem ReportOk.snoc {ds : List Raw.Directive} {rep : IndexedReport} (h : ReportOk ds rep) (raw : Raw.Directive) :
    ReportOk (ds ++ [raw]) rep :=
  ⟨h.1.snoc raw, fun e he => (h.2 e he).snoc raw⟩

theorem LocOk.here (ds : List Raw.Directive) (raw : Raw.Directive) : LocOk (ds ++ [raw]) { directive := ds.length } :=
  ⟨by simp, by simp⟩

theorem LocOk.plain {ds : List Raw.Directive} {e : ElementIdx} (h : e.posting = none ∧ e.directive < ds.length) :
    LocOk ds e := ⟨h.2, by simp [h.1]⟩

theorem ReportOk.report {ds : List Raw.Directive} {e : ElementIdx} (h : LocOk ds e) (reason : Reason) :
    ReportOk ds (e.report reason) := ⟨h, by simp [ElementIdx.report]⟩

theorem ReportOk.relatedTo {ds : List Raw.Directive} {e e' : ElementIdx} (h : LocOk ds e) (h' : LocOk ds e')
    (reason : Reason) : ReportOk ds ((e.report reason).relatedTo e') := by
  refine ⟨h, ?_⟩
  simp [ElementIdx.report, IndexedReport.relatedTo, h']

theorem PadAt.loc {n : Nat} {bk : List Booked.Directive} {st : State L} {a : Str} {i : Nat} {e : ElementIdx}
    (hi : StInv n bk st) (h : PadAt bk a i e) : e.posting = none ∧ e.directive < n := by
  obtain ⟨d, p, d2, t, h1, h2, h3, rfl, -⟩ := h
  exact ⟨rfl, hi.idxB d (List.mem_of_getElem? h1)⟩

theorem validateAccount_loc {pre : List Raw.Directive} {bk : List Booked.Directive} {st : State L}
    (hi : StInv pre.length bk st) {ds : List Raw.Directive} {raw : Raw.Directive} (hds : ds = pre ++ [raw])
    {acc : Str} {e : ElementIdx} (he : LocOk ds e) {x : IndexedReport} (h : st.validateAccount acc e = some x) :
    ReportOk ds x := by
  subst hds
  rcases (State.validateAccount_some h).2 with ⟨c, hc, rfl⟩ | ⟨-, rfl⟩
  · exact ReportOk.relatedTo he ((LocOk.plain (hi.idxC _ _ hc)).snoc raw) _
  · exact ReportOk.report he _

theorem validateCurrency_loc {pre : List Raw.Directive} {bk : List Booked.Directive} {st : State L}
    (hi : StInv pre.length bk st) {raw : Raw.Directive} {acc cur : Str} {e : ElementIdx} (he : LocOk (pre ++ [raw]) e)
    {a : Account L} (ha : st.accounts.get acc = some a) {x : IndexedReport} (h : a.validateCurrency cur e = some x) :
    ReportOk (pre ++ [raw]) x := by
  obtain ⟨-, rfl⟩ := Account.validateCurrency_some h
  exact ReportOk.relatedTo he ((LocOk.plain (hi.idxA _ _ ha)).snoc raw) _

theorem firstPostingError_loc {pre : List Raw.Directive} {bk : List Booked.Directive} {st : State L}
    (hi : StInv pre.length bk st) {raw : Raw.Directive} {t : Raw.Transaction} (hv : raw.variant = .transaction t)
    {i : Nat} {zs : List (Interpolated × Raw.PostingSpec)} (hlen : i + zs.length ≤ t.postings.length)
    {x : IndexedReport} (h : st.firstPostingError { directive := pre.length } i zs = .err x) :
    ReportOk (pre ++ [raw]) x := by
  induction zs generalizing i with
  | nil => simp [State.firstPostingError] at h
  | cons z zs ih =>
    obtain ⟨ip, p⟩ := z
    simp only [List.length_cons] at hlen
    have hloc : LocOk (pre ++ [raw]) { directive := pre.length, posting := some i } := by
      refine ⟨by simp, ?_⟩
      intro j hj
      simp only [Option.some.injEq] at hj
      subst hj
      exact ⟨raw, t, by simp, hv, by omega⟩
    simp only [State.firstPostingError] at h
    cases hva : st.validateAccountAndCurrency p.acc ip.currency { directive := pre.length, posting := some i } with
    | ok u => simp only [hva] at h; exact ih (by omega) h
    | panic => simp [hva] at h
    | err y =>
      simp only [hva, Got.err.injEq] at h
      subst h
      unfold State.validateAccountAndCurrency at hva
      cases hga : st.getValidAccount p.acc { directive := pre.length, posting := some i } with
      | err y =>
        simp only [hga, Got.err.injEq] at hva
        subst hva
        exact validateAccount_loc hi rfl hloc (State.getValidAccount_err.1 hga)
      | panic => simp [hga] at hva
      | ok a =>
        simp only [hga] at hva
        cases hc : a.validateCurrency ip.currency { directive := pre.length, posting := some i } with
        | none => simp [hc] at hva
        | some y =>
          simp only [hc, Got.err.injEq] at hva
          subst hva
          exact validateCurrency_loc hi hloc (State.getValidAccount_ok.1 hga).2 hc

theorem installInventory_loc {pre : List Raw.Directive} {bk : List Booked.Directive} {st st' : State L}
    (hi : StInv pre.length bk st) {raw : Raw.Directive} {us : List (Str × L.Pos)} {x : IndexedReport}
    (h : State.installInventory { directive := pre.length } st us = .err st' x) : ReportOk (pre ++ [raw]) x := by
  induction us generalizing st with
  | nil => simp [State.installInventory] at h
  | cons u us ih =>
    obtain ⟨acc, pos⟩ := u
    simp only [State.installInventory] at h
    cases hga : st.getValidAccount acc { directive := pre.length } with
    | ok a =>
      simp only [hga] at h
      refine ih (hi.sameMeta ?_) h
      exact SameMeta.setAccount (State.getValidAccount_ok.1 hga).2 ⟨rfl, rfl, rfl, rfl, rfl⟩
    | err y =>
      simp only [hga, Res.err.injEq] at h
      rw [← h.2]
      exact validateAccount_loc hi rfl (LocOk.here _ _) (State.getValidAccount_err.1 hga)
    | panic => simp [hga] at h

theorem opn_warnings {env : Env L} {st st' : State L} {o : Raw.Open} {e : ElementIdx} {v : Booked.Variant}
    (h : st.opn env o e = .ok st' v) {rep : IndexedReport} (hr : rep ∈ st'.warnings) :
    rep ∈ st.warnings ∨ ∃ reason, rep = e.report reason := by
  unfold State.opn at h
  cases h1 : st.opened.get o.acc with
  | some p => simp [h1] at h
  | none =>
    simp only [h1] at h
    cases h2 : st.closed.get o.acc with
    | some c => simp [h2] at h
    | none =>
      simp only [h2, Res.ok.injEq] at h
      rw [← h.1] at hr
      simp only [List.mem_append] at hr
      rcases hr with (hr | hr) | hr
      · exact Or.inl hr
      · split at hr
        · simp at hr
        · simp only [List.mem_singleton] at hr
          exact Or.inr ⟨_, hr⟩
      · split at hr
        · split at hr
          · simp at hr
          · simp only [List.mem_singleton] at hr
            exact Or.inr ⟨_, hr⟩
        · simp at hr

/-- The invariant. -/
structure LocInv (pre : List Raw.Directive) (r : Run L) : Prop where
  errors : ∀ rep ∈ r.errors, ReportOk pre rep
  warnings : ∀ rep ∈ r.st.warnings, ReportOk pre rep

theorem LocInv.step {env : Env L} {pre : List Raw.Directive} {raw : Raw.Directive} {r r' : Run L}
    (hi : StInv pre.length r.booked r.st) (h : LocInv pre r) (hs : r.step env pre.length raw = some r') :
    LocInv (pre ++ [raw]) r' := by
  have hw : ∀ st' : State L, st'.warnings = r.st.warnings → ∀ rep ∈ st'.warnings, ReportOk (pre ++ [raw]) rep :=
    fun st' h' rep hr => (h.warnings rep (h' ▸ hr)).snoc raw
  rcases Run.step_some hs with ⟨st', x, hd, rfl⟩ | ⟨st', v, v2, bk, errs, hd, hbe, rfl⟩
  · have herr : ReportOk (pre ++ [raw]) x → ∀ rep ∈ r.errors ++ [x], ReportOk (pre ++ [raw]) rep := by
      intro hx rep hr
      rcases List.mem_append.1 hr with hr | hr
      · exact (h.errors rep hr).snoc raw
      · simp only [List.mem_singleton] at hr; subst hr; exact hx
    rcases State.directive_err hd with ⟨t, hv, ht⟩ | ⟨b, hv, hb⟩ | ⟨o, hv, ho⟩ | ⟨c, hv, hc⟩ | ⟨p, hv, hp⟩
    · rcases State.transaction_err ht with ⟨rfl, text, -, rfl⟩ | ⟨rfl, i, text, -, rfl⟩ | ⟨q, -, ⟨rfl, hf⟩ | ⟨-, hin⟩⟩
      · exact ⟨herr (ReportOk.report (LocOk.here _ _) _), hw _ rfl⟩
      · exact ⟨herr (ReportOk.report (LocOk.here _ _) _), hw _ rfl⟩
      · exact ⟨herr (firstPostingError_loc hi hv (by simp) hf), hw _ rfl⟩
      · exact ⟨herr (installInventory_loc hi hin), hw _ (State.installInventory_sameMeta (Or.inr ⟨x, hin⟩)).warnings⟩
    · obtain ⟨rfl, hval | ⟨a, -, ha, hc⟩⟩ := State.balance_err hb
      · exact ⟨herr (validateAccount_loc hi rfl (LocOk.here _ _) hval), hw _ rfl⟩
      · exact ⟨herr (validateCurrency_loc hi (LocOk.here _ _) ha hc), hw _ rfl⟩
    · rcases State.opn_err ho with ⟨p, hp, rfl, rfl⟩ | ⟨c, -, hc, rfl, rfl⟩
      · exact ⟨herr (ReportOk.relatedTo (LocOk.here _ _) ((LocOk.plain (hi.idxO _ _ hp)).snoc raw) _), hw _ rfl⟩
      · exact ⟨herr (ReportOk.relatedTo (LocOk.here _ _) ((LocOk.plain (hi.idxC _ _ hc)).snoc raw) _), hw _ rfl⟩
    · obtain ⟨rfl, ⟨-, rfl⟩ | ⟨p, q, -, hq, rfl⟩⟩ := State.close_err hc
      · exact ⟨herr (ReportOk.report (LocOk.here _ _) _), hw _ rfl⟩
      · exact ⟨herr (ReportOk.relatedTo (LocOk.here _ _) ((LocOk.plain (hi.idxC _ _ hq)).snoc raw) _), hw _ rfl⟩
    · rcases State.pad_err hp with ⟨rfl, hval⟩ | ⟨a, j, u, -, ha, hpad, rfl, rfl⟩
      · exact ⟨herr (validateAccount_loc hi rfl (LocOk.here _ _) hval), hw _ rfl⟩
      · exact ⟨herr (ReportOk.relatedTo ((LocOk.plain (PadAt.loc hi (hi.pad _ _ _ _ ha hpad))).snoc raw)
          (LocOk.here _ _) _), hw _ rfl⟩
  · have herr : (∀ b p, v = .balance b → b.unusedPad = some p → LocOk (pre ++ [raw]) p) →
        ∀ rep ∈ r.errors ++ errs, ReportOk (pre ++ [raw]) rep := by
      intro hp rep hr
      rcases List.mem_append.1 hr with hr | hr
      · exact (h.errors rep hr).snoc raw
      · rcases mem_balanceErrors hbe hr with ⟨b, p, hv, hu, rfl⟩ | ⟨b, m, t, -, -, h1, h2, -⟩
        · exact ReportOk.report (hp b p hv hu) _
        · exact ⟨by rw [h1]; exact LocOk.here _ _, by simp [h2]⟩
    rcases State.directive_ok hd with ⟨t, hv', ht, rfl, rfl⟩ | ⟨b, hv', hbal, rfl⟩ | ⟨op, hv', ho, rfl, rfl⟩ |
        ⟨cl, hv', hc, rfl, rfl⟩ | ⟨p, v', hv', hpad, rfl, rfl⟩ | ⟨hpl, rfl, rfl, rfl⟩
    · obtain ⟨q, -, -, hin, rfl⟩ := State.transaction_ok ht
      exact ⟨herr (by simp), hw _ (State.installInventory_sameMeta (Or.inl hin)).warnings⟩
    · obtain ⟨y, hop, hy, hcv, hcase⟩ := State.balance_ok hbal
      rcases hcase with ⟨-, rfl, rfl, rfl⟩ | ⟨m, -, hyp, rfl, rfl, rfl⟩ | ⟨m, i, e0, -, hyp, hf⟩
      · refine ⟨herr ?_, hw _ rfl⟩
        intro b' p hb' hu
        cases hb'
        simp only [Option.map_eq_some_iff] at hu
        obtain ⟨⟨j, u⟩, h1, rfl⟩ := hu
        exact (LocOk.plain (PadAt.loc hi (hi.pad _ _ _ _ hy h1))).snoc raw
      · exact ⟨herr (by rintro b' p ⟨⟩ hu; simp at hu), hw _ rfl⟩
      · obtain ⟨d1, p, d2, t, src, h1, h2, h3, h4, rfl, h6, rfl, rfl⟩ := State.fillPad_ok hf
        exact ⟨herr (by rintro b' p ⟨⟩ hu; simp at hu), hw _ rfl⟩
    · obtain ⟨-, -, rfl, -⟩ := State.opn_ok ho
      refine ⟨herr (by simp), ?_⟩
      intro rep hr
      rcases opn_warnings ho hr with hr | ⟨reason, rfl⟩
      · exact (h.warnings rep hr).snoc raw
      · exact ReportOk.report (LocOk.here _ _) _
    · obtain ⟨-, -, rfl, rfl⟩ := State.close_ok hc
      exact ⟨herr (by simp), hw _ rfl⟩
    · obtain ⟨y, -, hy, hyp, rfl, rfl, rfl⟩ := State.pad_ok hpad
      exact ⟨herr (by simp), hw _ rfl⟩
    · refine ⟨herr ?_, hw _ rfl⟩
      rintro b p rfl hu
      cases hrv : raw.variant <;> simp [hrv, plainVariant] at hpl

theorem LocInv.loop {env : Env L} {ds : List Raw.Directive} {r : Run L} (h : Run.loop env 0 ds {} = some r) :
    LocInv ds r := by
  have := Run.loop_induction env (fun pre r => StInv pre.length r.booked r.st ∧ LocInv pre r)
    ⟨StInv.init, ⟨by simp, by simp⟩⟩
    (fun pre raw r r' hp hs => ⟨by simpa using hp.1.step hs, hp.2.step hp.1 hs⟩) h
  exact this.2

/-- C14: the locations of all errors and warnings exist. -/
theorem C14_locations (L : BookLib) (order : AMap Str (Account L) → AMap Str (Account L)) (hf : ∀ m, (order m).Perm m)
    (o : BookOptions) (ds : List Raw.Directive) :
    (∀ es, book L order o ds = .failure es → ∀ rep ∈ es, ReportOk ds rep) ∧
    (∀ out w, book L order o ds = .success out w → ∀ rep ∈ w, ReportOk ds rep) := by
  constructor
  · intro es h rep hr
    obtain ⟨r, hl, rfl, -⟩ := collect_failure h
    rcases List.mem_append.1 hr with hr | hr
    · exact (LocInv.loop hl).errors rep hr
    · have hi := StInv.loop hl
      simp only [State.leftOverPads, List.mem_filterMap, Option.map_eq_some_iff] at hr
      obtain ⟨⟨k, a⟩, hka, ⟨j, u⟩, hp, rfl⟩ := hr
      have hka : (k, a) ∈ r.st.accounts := (hf _).mem_iff.1 hka
      exact ReportOk.report (LocOk.plain (PadAt.loc hi (hi.pad k a j u (AMap.get_of_mem hi.wfA hka) hp))) _
  · intro out w h rep hr
    obtain ⟨r, hl, -, -, -, rfl⟩ := collect_success h
    exact (LocInv.loop hl).warnings rep hr

/-- A case: a ledger with a report on a posting (with a related location), on a second pad and on a left-over pad. -/
example : ∃ es, book Toy.lib id {}
    [Toy.mkOpen 1 Ex.bank (some [Ex.usd]), Toy.mkTxn 2 [(Ex.bank, ⟨0, 0⟩, Ex.usd), (Ex.bank, ⟨0, 0⟩, Ex.nzd)],
      Toy.mkPad 3 Ex.bank Ex.equity, Toy.mkPad 4 Ex.bank Ex.equity, Toy.mkPad 5 Ex.bank Ex.equity] = .failure es ∧
    es.map (fun rep => (rep.idx, rep.related)) =
      [({ directive := 1, posting := some 1 }, some [{ directive := 0 }]),
       ({ directive := 2 }, some [{ directive := 3 }]), ({ directive := 4 }, none)] :=
  ⟨match Toy.run
    [Toy.mkOpen 1 Ex.bank (some [Ex.usd]), Toy.mkTxn 2 [(Ex.bank, ⟨0, 0⟩, Ex.usd), (Ex.bank, ⟨0, 0⟩, Ex.nzd)],
      Toy.mkPad 3 Ex.bank Ex.equity, Toy.mkPad 4 Ex.bank Ex.equity, Toy.mkPad 5 Ex.bank Ex.equity] with
    | .failure es => es | _ => [], by decide +kernel, by decide +kernel⟩

end Limabean
