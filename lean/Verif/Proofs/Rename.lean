/-
Booking commutes with renaming directive positions, and does not depend on the iteration order of the accounts.
-/
import Verif.Proofs.Errors

namespace Limabean

open Spec

/-! ### Renaming -/

/-- Rename the directive of a location. -/
def ElementIdx.rename (f : Nat → Nat) (e : ElementIdx) : ElementIdx := { e with directive := f e.directive }

/-- Rename the directives in a report. -/
def IndexedReport.rename (f : Nat → Nat) (r : IndexedReport) : IndexedReport :=
  { r with idx := r.idx.rename f, related := r.related.map fun es => es.map (ElementIdx.rename f) }

/-- Rename the directives in a booked directive. -/
def Booked.Variant.rename (f : Nat → Nat) : Booked.Variant → Booked.Variant
  | .balance b => .balance { b with unusedPad := b.unusedPad.map (ElementIdx.rename f) }
  | v => v

/-- Rename the directives in a booked directive. -/
def Booked.Directive.rename (f : Nat → Nat) (d : Booked.Directive) : Booked.Directive :=
  { d with idx := f d.idx, variant := d.variant.rename f }

/-- Map the values of a map. -/
def AMap.mapV {K V W : Type} (g : V → W) (m : AMap K V) : AMap K W := m.map fun kv => (kv.1, g kv.2)

section AMap
variable {K V W : Type} [DecidableEq K]

theorem AMap.get_mapV (g : V → W) (m : AMap K V) (k : K) : (AMap.mapV g m).get k = (m.get k).map g := by
  induction m with
  | nil => rfl
  | cons kv m ih =>
    obtain ⟨k', v⟩ := kv
    simp only [AMap.mapV, List.map_cons, AMap.get] at ih ⊢
    by_cases h : k' = k
    · simp [h]
    · simp only [h, if_false]; exact ih

theorem AMap.has_mapV (g : V → W) (m : AMap K V) (k : K) : (AMap.mapV g m).has k = m.has k := by
  simp [AMap.has, AMap.get_mapV]

theorem AMap.set_mapV (g : V → W) (m : AMap K V) (k : K) (v : V) :
    (AMap.mapV g m).set k (g v) = AMap.mapV g (m.set k v) := by
  induction m with
  | nil => rfl
  | cons kv m ih =>
    obtain ⟨k', v'⟩ := kv
    simp only [AMap.mapV, List.map_cons, AMap.set] at ih ⊢
    by_cases h : k' = k
    · simp [h]
    · simp only [h, if_false, List.map_cons]; rw [ih]

theorem AMap.del_mapV (g : V → W) (m : AMap K V) (k : K) : (AMap.mapV g m).del k = AMap.mapV g (m.del k) := by
  induction m with
  | nil => rfl
  | cons kv m ih =>
    obtain ⟨k', v'⟩ := kv
    simp only [AMap.mapV, List.map_cons, AMap.del] at ih ⊢
    by_cases h : k' = k
    · simp [h]
    · simp only [h, if_false, List.map_cons]; rw [ih]

end AMap

variable {L : BookLib}

/-- Rename the directives in an account. -/
def Account.rename (f : Nat → Nat) (a : Account L) : Account L :=
  { a with opened := a.opened.rename f, pad := a.pad.map fun p => (p.1, p.2.rename f) }

/-- Rename the directives in a state. -/
def State.rename (f : Nat → Nat) (st : State L) : State L :=
  { opened := AMap.mapV (ElementIdx.rename f) st.opened
    closed := AMap.mapV (ElementIdx.rename f) st.closed
    accounts := AMap.mapV (Account.rename f) st.accounts
    warnings := st.warnings.map (IndexedReport.rename f) }

/-- Rename the directives in a run. -/
def Run.rename (f : Nat → Nat) (r : Run L) : Run L :=
  { st := r.st.rename f
    booked := r.booked.map (Booked.Directive.rename f)
    errors := r.errors.map (IndexedReport.rename f) }

/-- Rename the result of a lookup. -/
def Got.rename {α : Type} (f : Nat → Nat) (g : α → α) : Got α → Got α
  | .ok a => .ok (g a)
  | .err e => .err (e.rename f)
  | .panic => .panic

/-- Rename the result of a step. -/
def Res.rename {α : Type} (f : Nat → Nat) (g : α → α) : Res (State L) α → Res (State L) α
  | .ok st a => .ok (st.rename f) (g a)
  | .err st e => .err (st.rename f) (e.rename f)
  | .panic => .panic

theorem ElementIdx.rename_report (f : Nat → Nat) (e : ElementIdx) (r : Reason) :
    (e.rename f).report r = (e.report r).rename f := by
  simp [ElementIdx.report, IndexedReport.rename]

theorem IndexedReport.rename_relatedTo (f : Nat → Nat) (r : IndexedReport) (e : ElementIdx) :
    (r.rename f).relatedTo (e.rename f) = (r.relatedTo e).rename f := by
  unfold IndexedReport.relatedTo IndexedReport.rename
  cases h : r.related <;> simp

/-- Two environments which differ in iteration order only. -/
structure SameEnv (env env' : Env L) : Prop where
  booking : env'.defaultBooking = env.defaultBooking
  tolerance : env'.tolerance = env.tolerance
  fair : env.Fair
  fair' : env'.Fair

section
variable (f : Nat → Nat)

theorem Account.rename_validateCurrency (a : Account L) (cur : Str) (e : ElementIdx) :
    (a.rename f).validateCurrency cur (e.rename f) = (a.validateCurrency cur e).map (IndexedReport.rename f) := by
  unfold Account.validateCurrency
  have : (a.rename f).isCurrencyValid cur = a.isCurrencyValid cur := rfl
  rw [this]
  split
  · rfl
  · simp only [Option.map_some]
    rw [ElementIdx.rename_report]
    exact congrArg some (IndexedReport.rename_relatedTo _ _ _)

theorem State.rename_validateAccount (st : State L) (acc : Str) (e : ElementIdx) :
    (st.rename f).validateAccount acc (e.rename f) = (st.validateAccount acc e).map (IndexedReport.rename f) := by
  unfold State.validateAccount
  simp only [State.rename, AMap.has_mapV, AMap.get_mapV]
  split
  · rfl
  · cases st.closed.get acc with
    | none => simp [ElementIdx.rename_report]
    | some c => simp [ElementIdx.rename_report, IndexedReport.rename_relatedTo]

theorem State.rename_getValidAccount (st : State L) (acc : Str) (e : ElementIdx) :
    (st.rename f).getValidAccount acc (e.rename f) = (st.getValidAccount acc e).rename f (Account.rename f) := by
  unfold State.getValidAccount
  rw [State.rename_validateAccount]
  cases st.validateAccount acc e with
  | some x => rfl
  | none =>
    simp only [Option.map_none]
    have : (st.rename f).accounts.get acc = (st.accounts.get acc).map (Account.rename f) := AMap.get_mapV _ _ _
    rw [this]
    cases st.accounts.get acc <;> rfl

theorem State.rename_validateAccountAndCurrency (st : State L) (acc cur : Str) (e : ElementIdx) :
    (st.rename f).validateAccountAndCurrency acc cur (e.rename f) =
      (st.validateAccountAndCurrency acc cur e).rename f id := by
  unfold State.validateAccountAndCurrency
  rw [State.rename_getValidAccount]
  cases st.getValidAccount acc e with
  | err x => rfl
  | panic => rfl
  | ok a =>
    simp only [Got.rename, Account.rename_validateCurrency]
    cases a.validateCurrency cur e <;> rfl

theorem State.rename_firstPostingError (st : State L) (e : ElementIdx) (i : Nat)
    (zs : List (Interpolated × Raw.PostingSpec)) :
    (st.rename f).firstPostingError (e.rename f) i zs = (st.firstPostingError e i zs).rename f id := by
  induction zs generalizing i with
  | nil => rfl
  | cons z zs ih =>
    obtain ⟨ip, p⟩ := z
    simp only [State.firstPostingError]
    have := State.rename_validateAccountAndCurrency f st p.acc ip.currency { directive := e.directive, posting := some i }
    simp only [ElementIdx.rename] at this ih ⊢
    rw [this]
    cases st.validateAccountAndCurrency p.acc ip.currency { directive := e.directive, posting := some i } with
    | ok u => exact ih (i + 1)
    | err x => rfl
    | panic => rfl

theorem State.rename_setAccount (st : State L) (acc : Str) (a : Account L) :
    (st.rename f).setAccount acc (a.rename f) = (st.setAccount acc a).rename f := by
  unfold State.setAccount State.rename
  simp [AMap.set_mapV]

theorem State.rename_installInventory (e : ElementIdx) (st : State L) (us : List (Str × L.Pos)) :
    State.installInventory (e.rename f) (st.rename f) us = (State.installInventory e st us).rename f id := by
  induction us generalizing st with
  | nil => rfl
  | cons u us ih =>
    obtain ⟨acc, pos⟩ := u
    simp only [State.installInventory, State.rename_getValidAccount]
    cases st.getValidAccount acc e with
    | err x => rfl
    | panic => rfl
    | ok a =>
      simp only [Got.rename]
      have h := State.rename_setAccount f st acc { a with positions := pos }
      rw [← ih, ← h]
      rfl

theorem State.rename_inventory (st : State L) : (st.rename f).inventory = st.inventory := by
  funext acc
  unfold State.inventory
  simp only [State.rename, AMap.get_mapV, Option.map_map]
  cases st.accounts.get acc <;> rfl

theorem State.rename_bookingFor {env env' : Env L} (he : SameEnv env env') (st : State L) :
    (st.rename f).bookingFor env' = st.bookingFor env := by
  funext acc
  unfold State.bookingFor
  simp only [State.rename, AMap.get_mapV, Option.map_map, he.booking]
  cases st.accounts.get acc <;> rfl

theorem Booked.Variant.rename_transaction (t : Booked.Transaction) :
    (Booked.Variant.transaction t).rename f = .transaction t := rfl

theorem State.rename_transaction {env env' : Env L} (he : SameEnv env env') (st : State L) (t : Raw.Transaction)
    (date : Date) (e : ElementIdx) :
    (st.rename f).transaction env' t date (e.rename f) =
      (st.transaction env t date e).rename f (Booked.Variant.rename f) := by
  unfold State.transaction State.book
  rw [he.tolerance, State.rename_inventory, State.rename_bookingFor f he]
  cases L.book date t.postings env.tolerance st.inventory (st.bookingFor env) with
  | error x =>
    cases x <;> simp [Res.rename, ElementIdx.rename_report]
  | ok r =>
    simp only [State.rename_firstPostingError]
    cases st.firstPostingError e 0 (r.interpolated.zip t.postings) with
    | err x => rfl
    | panic => rfl
    | ok u =>
      simp only [Got.rename, id, State.rename_installInventory]
      cases State.installInventory e st r.updated <;> rfl

theorem State.rename_totalRollupUnits {env env' : Env L} (he : SameEnv env env') (st : State L) (base cur : Str) :
    (st.rename f).totalRollupUnits env' base cur = st.totalRollupUnits env base cur := by
  unfold State.totalRollupUnits
  rw [Dec.sum_perm ((he.fair st.accounts).filter _ |>.map _),
    Dec.sum_perm ((he.fair' (st.rename f).accounts).filter _ |>.map _)]
  congr 1
  simp only [State.rename, AMap.mapV]
  induction st.accounts with
  | nil => rfl
  | cons ka m ih =>
    simp only [List.map_cons, List.filter_cons]
    split
    · simp only [List.map_cons]; rw [ih]; rfl
    · exact ih

theorem State.rename_marginOf {env env' : Env L} (he : SameEnv env env') (st : State L) (b : Raw.Balance) :
    (st.rename f).marginOf env' b = st.marginOf env b := by
  unfold State.marginOf
  rw [State.rename_totalRollupUnits f he]
  unfold effectiveTolerance
  rw [he.tolerance]

theorem Booked.Variant.rename_pad {v : Booked.Variant} {p : Raw.Pad} : v.rename f = .pad p ↔ v = .pad p := by
  cases v <;> simp [Booked.Variant.rename]

theorem rename_setPostingsAt (bk : List Booked.Directive) (i : Nat) (ps : List Booked.Posting) :
    setPostingsAt (bk.map (Booked.Directive.rename f)) i ps =
      (setPostingsAt bk i ps).map (List.map (Booked.Directive.rename f)) := by
  unfold setPostingsAt
  rw [List.getElem?_map]
  cases bk[i]? with
  | none => rfl
  | some d =>
    simp only [Option.map_some]
    obtain ⟨idx, date, tags, links, md, v⟩ := d
    cases v <;> simp [Booked.Directive.rename, Booked.Variant.rename]

theorem State.rename_fillPad (st : State L) (b : Raw.Balance) (m : Dec) (i : Nat) (bk : List Booked.Directive) :
    (st.rename f).fillPad b m i (bk.map (Booked.Directive.rename f)) =
      (st.fillPad b m i bk).rename f (fun vb => (vb.1.rename f, vb.2.map (Booked.Directive.rename f))) := by
  unfold State.fillPad
  rw [List.getElem?_map]
  cases bk[i]? with
  | none => rfl
  | some d =>
    simp only [Option.map_some]
    obtain ⟨idx, date, tags, links, md, v⟩ := d
    cases v with
    | pad p =>
      simp only [Booked.Directive.rename, Booked.Variant.rename]
      have := rename_setPostingsAt f bk (i + 1) (calculateBalancePadPostings b.cur m b.acc p.source)
      rw [this]
      cases setPostingsAt bk (i + 1) (calculateBalancePadPostings b.cur m b.acc p.source) with
      | none => rfl
      | some bk' =>
        simp only [Option.map_some]
        have hget : (st.rename f).accounts.get p.source = (st.accounts.get p.source).map (Account.rename f) :=
          AMap.get_mapV _ _ _
        rw [hget]
        cases st.accounts.get p.source with
        | none => rfl
        | some src =>
          simp only [Option.map_some, Res.rename]
          rw [← State.rename_setAccount]
          rfl
    | _ => rfl

theorem Account.rename_advance (a : Account L) (n : Nat) : (a.rename f).advance n = (a.advance n).rename f := rfl

theorem Account.rename_adjustAdd (a : Account L) (cur : Str) (m : Dec) :
    (a.rename f).adjustAdd cur m = (a.adjustAdd cur m).rename f := rfl

theorem State.rename_balance {env env' : Env L} (he : SameEnv env env') (st : State L) (b : Raw.Balance)
    (e : ElementIdx) (bk : List Booked.Directive) :
    (st.rename f).balance env' b (e.rename f) (bk.map (Booked.Directive.rename f)) =
      (st.balance env b e bk).rename f (fun vb => (vb.1.rename f, vb.2.map (Booked.Directive.rename f))) := by
  have hm := State.rename_marginOf f he st b
  unfold State.marginOf at hm
  unfold State.balance
  simp only [hm, State.rename_getValidAccount, List.length_map]
  cases st.getValidAccount b.acc e with
  | err x => rfl
  | panic => rfl
  | ok a =>
    simp only [Got.rename, Account.rename_validateCurrency]
    cases a.validateCurrency b.cur e with
    | some x => rfl
    | none =>
      simp only [Option.map_none, Account.rename_advance, Account.rename_adjustAdd, State.rename_setAccount]
      cases calculateBalanceMargin b.units (effectiveTolerance env b) (st.totalRollupUnits env b.acc b.cur) with
      | none =>
        simp only [Res.rename, Booked.Variant.rename]
        congr 4
        simp [Account.rename, Option.map_map, Function.comp_def]
      | some m =>
        obtain ⟨al, po, op, pd, wi, bo⟩ := a
        cases pd with
        | none => rfl
        | some ie => exact State.rename_fillPad f _ b m ie.1 bk

theorem rename_diagnose (base : Str) (total : Dec) (ds : List Booked.Directive) :
    diagnose base total (ds.map (Booked.Directive.rename f)) = diagnose base total ds := by
  induction ds generalizing total with
  | nil => rfl
  | cons d ds ih =>
    obtain ⟨idx, date, tags, links, md, v⟩ := d
    simp only [List.map_cons]
    cases v <;> first
      | exact ih _
      | (simp only [diagnose, Booked.Directive.rename, Booked.Variant.rename]; rw [ih])

theorem rename_reportBase (cur : Str) (w : Window) (bk : List Booked.Directive) :
    reportBase cur w (bk.map (Booked.Directive.rename f)) = reportBase cur w bk := by
  unfold reportBase
  rw [List.getElem?_map]
  cases bk[w.start]? with
  | none => rfl
  | some d =>
    obtain ⟨idx, date, tags, links, md, v⟩ := d
    cases v <;> rfl

theorem State.rename_balanceReport (st : State L) (base : Str) (m : Dec) (cur : Str) (e : ElementIdx)
    (bk : List Booked.Directive) :
    (st.rename f).balanceReport base m cur (e.rename f) (bk.map (Booked.Directive.rename f)) =
      (st.balanceReport base m cur e bk).map (IndexedReport.rename f) := by
  unfold State.balanceReport
  have hget : (st.rename f).accounts.get base = (st.accounts.get base).map (Account.rename f) := AMap.get_mapV _ _ _
  rw [hget]
  cases st.accounts.get base with
  | none => rfl
  | some a =>
    simp only [Option.map_some]
    obtain ⟨al, po, op, pd, wi, bo⟩ := a
    cases wi with
    | none => rfl
    | some w =>
      simp only [Account.rename, List.length_map, ← List.map_take, ← List.map_drop, rename_diagnose, rename_reportBase]
      split <;> rfl

theorem State.rename_opn {env env' : Env L} (he : SameEnv env env') (st : State L) (o : Raw.Open) (e : ElementIdx) :
    (st.rename f).opn env' o (e.rename f) = (st.opn env o e).rename f (Booked.Variant.rename f) := by
  have h1 : (st.rename f).opened.get o.acc = (st.opened.get o.acc).map (ElementIdx.rename f) := AMap.get_mapV _ _ _
  have h2 : (st.rename f).closed.get o.acc = (st.closed.get o.acc).map (ElementIdx.rename f) := AMap.get_mapV _ _ _
  have h3 : (st.rename f).opened.set o.acc (e.rename f) = AMap.mapV (ElementIdx.rename f) (st.opened.set o.acc e) :=
    AMap.set_mapV _ _ _ _
  have h4 : ∀ bk : Booking, (st.rename f).accounts.set o.acc (Account.new (o.currencies.getD []) bk (e.rename f)) =
      AMap.mapV (Account.rename f) (st.accounts.set o.acc (Account.new (o.currencies.getD []) bk e)) :=
    fun bk => AMap.set_mapV (Account.rename f) _ _ (Account.new (o.currencies.getD []) bk e)
  unfold State.opn
  rw [h1]
  cases st.opened.get o.acc with
  | some p => simp [Res.rename, ElementIdx.rename_report, IndexedReport.rename_relatedTo]
  | none =>
    simp only [Option.map_none, h2]
    cases st.closed.get o.acc with
    | some c =>
      simp only [Option.map_some, h3, Res.rename, ElementIdx.rename_report, IndexedReport.rename_relatedTo]
      rfl
    | none =>
      simp only [Option.map_none, h3, h4, Res.rename, he.booking, Booked.Variant.rename]
      congr 1
      unfold State.rename
      simp only [List.map_append, State.mk.injEq, true_and]
      congr 1
      · congr 1
        split <;> simp [ElementIdx.rename_report]
      · cases o.booking with
        | none => rfl
        | some b =>
          simp only
          split <;> simp [ElementIdx.rename_report]

theorem State.rename_close (st : State L) (c : Raw.Close) (e : ElementIdx) :
    (st.rename f).close c (e.rename f) = (st.close c e).rename f (Booked.Variant.rename f) := by
  have h1 : (st.rename f).opened.get c.acc = (st.opened.get c.acc).map (ElementIdx.rename f) := AMap.get_mapV _ _ _
  have h2 : (st.rename f).closed.get c.acc = (st.closed.get c.acc).map (ElementIdx.rename f) := AMap.get_mapV _ _ _
  have h3 : (st.rename f).closed.set c.acc (e.rename f) = AMap.mapV (ElementIdx.rename f) (st.closed.set c.acc e) :=
    AMap.set_mapV _ _ _ _
  have h4 : (st.rename f).opened.del c.acc = AMap.mapV (ElementIdx.rename f) (st.opened.del c.acc) := AMap.del_mapV _ _ _
  unfold State.close
  rw [h1, h2, h3, h4]
  cases st.opened.get c.acc with
  | none => simp [Res.rename, ElementIdx.rename_report]
  | some p =>
    cases st.closed.get c.acc with
    | some q => simp [Res.rename, ElementIdx.rename_report, IndexedReport.rename_relatedTo]
    | none => rfl

theorem State.rename_padStep (st : State L) (p : Raw.Pad) (i : Nat) (e : ElementIdx) :
    (st.rename f).pad p i (e.rename f) =
      (st.pad p i e).rename f (fun vv => (vv.1.rename f, vv.2.rename f)) := by
  unfold State.pad
  rw [State.rename_getValidAccount]
  cases st.getValidAccount p.acc e with
  | err x => rfl
  | panic => rfl
  | ok a =>
    simp only [Got.rename]
    obtain ⟨al, po, op, pd, wi, bo⟩ := a
    cases pd with
    | none =>
      simp only [Account.rename, Option.map_none, Res.rename, Booked.Variant.rename]
      rw [← State.rename_setAccount]
      rfl
    | some ie =>
      simp only [Account.rename, Option.map_some, Res.rename, ElementIdx.rename_report, IndexedReport.rename_relatedTo]
      rw [← State.rename_setAccount]
      rfl

theorem State.rename_directive {env env' : Env L} (he : SameEnv env env') (st : State L) (d : Raw.Directive)
    (e : ElementIdx) (bk : List Booked.Directive) :
    (st.rename f).directive env' d (e.rename f) (bk.map (Booked.Directive.rename f)) =
      (st.directive env d e bk).rename f (fun s => (s.1.rename f, s.2.1.map (Booked.Variant.rename f),
        s.2.2.map (Booked.Directive.rename f))) := by
  unfold State.directive
  cases d.variant with
  | transaction t =>
    simp only [State.rename_transaction f he]
    cases st.transaction env t d.date e <;> rfl
  | balance b =>
    simp only [State.rename_balance f he]
    cases st.balance env b e bk <;> rfl
  | opn o =>
    simp only [State.rename_opn f he]
    cases st.opn env o e <;> rfl
  | close c =>
    simp only [State.rename_close]
    cases st.close c e <;> rfl
  | pad p =>
    simp only [State.rename_padStep, List.length_map]
    cases st.pad p bk.length e <;> rfl
  | _ => rfl

theorem rename_balanceErrors (st : State L) (e : ElementIdx) (bk : List Booked.Directive) (v : Booked.Variant) :
    balanceErrors (st.rename f) (e.rename f) (bk.map (Booked.Directive.rename f)) (v.rename f) =
      (balanceErrors st e bk v).map (List.map (IndexedReport.rename f)) := by
  cases v with
  | balance b =>
    obtain ⟨raw, up, mg⟩ := b
    unfold balanceErrors
    simp only [Booked.Variant.rename]
    cases mg with
    | none => cases up <;> simp [ElementIdx.rename_report]
    | some m =>
      simp only [State.rename_balanceReport]
      cases st.balanceReport raw.acc m raw.cur e bk with
      | none => rfl
      | some r => cases up <;> simp [ElementIdx.rename_report]
  | _ => rfl

/-- Booking a directive commutes with renaming positions. -/
theorem Run.rename_step {env env' : Env L} (he : SameEnv env env') (n : Nat) (raw : Raw.Directive) (r : Run L) :
    (r.rename f).step env' (f n) raw = (r.step env n raw).map (Run.rename f) := by
  unfold Run.step
  have h := State.rename_directive f he r.st raw { directive := n } r.booked
  simp only [ElementIdx.rename] at h
  simp only [Run.rename, h]
  cases r.st.directive env raw { directive := n } r.booked with
  | panic => rfl
  | err st x => simp [Res.rename, Run.rename]
  | ok st s =>
    obtain ⟨v, v2, bk⟩ := s
    simp only [Res.rename]
    have h2 := rename_balanceErrors f st { directive := n } bk v
    simp only [ElementIdx.rename] at h2
    rw [h2]
    cases balanceErrors st { directive := n } bk v with
    | none => rfl
    | some errs =>
      simp only [Option.map_some, Option.some.injEq, Run.rename, List.map_append]
      cases v2 <;> rfl

/-- Booking directives commutes with renaming positions. -/
theorem Run.rename_loop {env env' : Env L} (he : SameEnv env env') (n n' : Nat) (hf : ∀ k, f (n + k) = n' + k)
    (ds : List Raw.Directive) (r : Run L) :
    Run.loop env' n' ds (r.rename f) = (Run.loop env n ds r).map (Run.rename f) := by
  induction ds generalizing n n' r with
  | nil => rfl
  | cons d ds ih =>
    have h0 : n' = f n := by simpa using (hf 0).symm
    simp only [Run.loop]
    rw [h0, Run.rename_step f he]
    cases r.step env n d with
    | none => rfl
    | some r' =>
      simp only [Option.map_some]
      refine ih (n + 1) (f n + 1) ?_ r'
      intro k
      have := hf (k + 1)
      rw [show n + 1 + k = n + (k + 1) by omega, this, h0]; omega

end

/-- Put reports before those of a run. -/
def Run.after (es : List IndexedReport) (r : Run L) : Run L := { r with errors := es ++ r.errors }

theorem Run.after_step (es : List IndexedReport) {env : Env L} (n : Nat) (raw : Raw.Directive) (r : Run L) :
    (r.after es).step env n raw = (r.step env n raw).map (Run.after es) := by
  unfold Run.step Run.after
  simp only
  cases r.st.directive env raw { directive := n } r.booked with
  | panic => rfl
  | err st x => simp
  | ok st s =>
    obtain ⟨v, v2, bk⟩ := s
    simp only
    cases balanceErrors st { directive := n } bk v <;> simp

theorem Run.after_loop (es : List IndexedReport) {env : Env L} (n : Nat) (ds : List Raw.Directive) (r : Run L) :
    Run.loop env n ds (r.after es) = (Run.loop env n ds r).map (Run.after es) := by
  induction ds generalizing n r with
  | nil => rfl
  | cons d ds ih =>
    simp only [Run.loop]
    rw [Run.after_step]
    cases r.step env n d with
    | none => rfl
    | some r' => exact ih (n + 1) r'

end Limabean
