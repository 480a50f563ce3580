/-
Booking commutes with leaving out the directives on unrelated accounts.
-/
import Verif.Spec.Parts
import Verif.Proofs.Rename
import Verif.Proofs.Invariant
import Verif.Proofs.Accounts

namespace Limabean

open Spec

/-! ### Maps -/

/-- Only those keys. -/
def AMap.only {K V : Type} (M : K → Bool) (m : AMap K V) : AMap K V := m.filter fun kv => M kv.1

section AMap
variable {K V : Type} [DecidableEq K] (M : K → Bool)

theorem AMap.get_only {k : K} (hk : M k = true) (m : AMap K V) : (AMap.only M m).get k = m.get k := by
  induction m with
  | nil => rfl
  | cons kv m ih =>
    obtain ⟨k', v⟩ := kv
    unfold AMap.only at ih ⊢
    rw [List.filter_cons]
    by_cases h : k' = k
    · subst h
      simp [hk, AMap.get]
    · split
      · simp only [AMap.get, h, if_false]; exact ih
      · simp only [AMap.get, h, if_false]; exact ih

theorem AMap.get_only_ne {k : K} (hk : M k = false) (m : AMap K V) : (AMap.only M m).get k = none := by
  induction m with
  | nil => rfl
  | cons kv m ih =>
    obtain ⟨k', v⟩ := kv
    unfold AMap.only at ih ⊢
    rw [List.filter_cons]
    split
    · rename_i hk'
      have : k' ≠ k := by rintro rfl; simp [hk] at hk'
      simp only [AMap.get, this, if_false]; exact ih
    · exact ih

theorem AMap.set_only {k : K} (hk : M k = true) (m : AMap K V) (v : V) : (AMap.only M m).set k v = AMap.only M (m.set k v) := by
  induction m with
  | nil => simp [AMap.only, AMap.set, hk]
  | cons kv m ih =>
    obtain ⟨k', v'⟩ := kv
    unfold AMap.only at ih ⊢
    rw [List.filter_cons]
    by_cases h : k' = k
    · subst h
      simp [hk, AMap.set]
    · split
      · rename_i hk'
        simp only [AMap.set, h, if_false, List.filter_cons, hk', if_true]; rw [ih]
      · rename_i hk'
        simp only [AMap.set, h, if_false, List.filter_cons, hk', if_true, Bool.false_eq_true]; rw [ih]

theorem AMap.set_only_ne {k : K} (hk : M k = false) (m : AMap K V) (v : V) : AMap.only M (m.set k v) = AMap.only M m := by
  induction m with
  | nil => simp [AMap.only, AMap.set, hk]
  | cons kv m ih =>
    obtain ⟨k', v'⟩ := kv
    unfold AMap.only at ih ⊢
    by_cases h : k' = k
    · subst h
      simp [AMap.set, List.filter_cons, hk]
    · simp only [AMap.set, h, if_false, List.filter_cons, ih]

theorem AMap.del_only {k : K} (hk : M k = true) (m : AMap K V) : (AMap.only M m).del k = AMap.only M (m.del k) := by
  induction m with
  | nil => rfl
  | cons kv m ih =>
    obtain ⟨k', v'⟩ := kv
    unfold AMap.only at ih ⊢
    rw [List.filter_cons]
    by_cases h : k' = k
    · subst h
      simp [hk, AMap.del]
    · split
      · rename_i hk'
        simp only [AMap.del, h, if_false, List.filter_cons, hk', if_true]; rw [ih]
      · rename_i hk'
        simp only [AMap.del, h, if_false, List.filter_cons, hk', Bool.false_eq_true]; rw [ih]

theorem AMap.del_only_ne {k : K} (hk : M k = false) (m : AMap K V) : AMap.only M (m.del k) = AMap.only M m := by
  induction m with
  | nil => rfl
  | cons kv m ih =>
    obtain ⟨k', v'⟩ := kv
    unfold AMap.only at ih ⊢
    by_cases h : k' = k
    · subst h
      simp [AMap.del, List.filter_cons, hk]
    · simp only [AMap.del, h, if_false, List.filter_cons, ih]

end AMap

/-! ### Lists -/

section Lists
variable {α : Type} (P : α → Bool)

/-- So many of the first `i` elements satisfy the condition. -/
def countTo (l : List α) (i : Nat) : Nat := ((l.take i).filter P).length

theorem countTo_append {l m : List α} {i : Nat} (h : i ≤ l.length) : countTo P (l ++ m) i = countTo P l i := by
  unfold countTo
  rw [List.take_append_of_le_length h]

theorem countTo_length (l : List α) : countTo P l l.length = (l.filter P).length := by
  unfold countTo
  rw [List.take_length]

theorem countTo_le (l : List α) (i : Nat) : countTo P l i ≤ (l.filter P).length := by
  unfold countTo
  exact ((List.take_sublist i l).filter P).length_le

theorem countTo_mono (l : List α) {i j : Nat} (h : i ≤ j) : countTo P l i ≤ countTo P l j := by
  unfold countTo
  exact ((List.take_sublist_take_left h).filter P).length_le

theorem take_countTo (l : List α) (i : Nat) : (l.filter P).take (countTo P l i) = (l.take i).filter P := by
  induction l generalizing i with
  | nil => simp [countTo]
  | cons x l ih =>
    cases i with
    | zero => simp [countTo]
    | succ i =>
      have := ih i
      unfold countTo at this ⊢
      cases hx : P x with
      | true => simp [List.filter_cons, hx, this]
      | false => simp [List.filter_cons, hx, this]

theorem drop_countTo (l : List α) (i : Nat) : (l.filter P).drop (countTo P l i) = (l.drop i).filter P := by
  induction l generalizing i with
  | nil => simp [countTo]
  | cons x l ih =>
    cases i with
    | zero => simp [countTo]
    | succ i =>
      have := ih i
      unfold countTo at this ⊢
      cases hx : P x with
      | true => simp [List.filter_cons, hx, this]
      | false => simp [List.filter_cons, hx, this]

theorem slice_countTo (l : List α) {i j : Nat} (h : i ≤ j) :
    ((l.filter P).take (countTo P l j)).drop (countTo P l i) = ((l.take j).drop i).filter P := by
  rw [take_countTo]
  have : countTo P l i = countTo P (l.take j) i := by
    unfold countTo
    rw [List.take_take, Nat.min_eq_left h]
  rw [this, drop_countTo]

theorem get_countTo {l : List α} {i : Nat} {x : α} (h : l[i]? = some x) (hx : P x = true) : (l.filter P)[countTo P l i]? = some x := by
  have h1 := drop_countTo P l i
  have h2 : l.drop i = x :: l.drop (i + 1) := by
    obtain ⟨hl, rfl⟩ := List.getElem?_eq_some_iff.1 h
    exact List.drop_eq_getElem_cons hl
  rw [h2, List.filter_cons, if_pos hx] at h1
  have h3 : ((l.filter P).drop (countTo P l i))[0]? = some x := by rw [h1]; rfl
  rw [List.getElem?_drop] at h3
  simpa using h3

theorem countTo_succ {l : List α} {i : Nat} {x : α} (h : l[i]? = some x) (hx : P x = true) : countTo P l (i + 1) = countTo P l i + 1 := by
  unfold countTo
  rw [List.take_add_one, h]
  simp [List.filter_append, hx]

theorem filter_set_pos {l : List α} {i : Nat} {x y : α} (h : l[i]? = some x) (hx : P x = true) (hy : P y = true) :
    (l.set i y).filter P = (l.filter P).set (countTo P l i) y := by
  induction l generalizing i with
  | nil => simp at h
  | cons z l ih =>
    cases i with
    | zero =>
      simp only [List.getElem?_cons_zero, Option.some.injEq] at h
      subst h
      simp [countTo, hx, hy]
    | succ i =>
      have := ih (i := i) (by simpa using h)
      unfold countTo at this ⊢
      cases hz : P z with
      | true => simp [hz, this]
      | false => simp [hz, this]

theorem filter_set_neg {l : List α} {i : Nat} {x y : α} (h : l[i]? = some x) (hx : P x = false) (hy : P y = false) :
    (l.set i y).filter P = l.filter P := by
  induction l generalizing i with
  | nil => simp at h
  | cons z l ih =>
    cases i with
    | zero =>
      simp only [List.getElem?_cons_zero, Option.some.injEq] at h
      subst h
      simp [hx, hy]
    | succ i =>
      have := ih (i := i) (by simpa using h)
      cases hz : P z with
      | true => simp [hz, this]
      | false => simp [hz, this]

end Lists

/-! ### States -/

variable {L : BookLib}

/-- Positions in the booked directives change. -/
def Account.moved (c : Nat → Nat) (a : Account L) : Account L :=
  { a with pad := a.pad.map fun p => (c p.1, p.2), window := a.window.map fun w => ⟨c w.start, c w.stop⟩ }

/-- Only those accounts and directives. -/
def State.keep (M : Str → Bool) (K : Nat → Bool) (c : Nat → Nat) (st : State L) : State L :=
  { opened := AMap.only M st.opened
    closed := AMap.only M st.closed
    accounts := AMap.mapV (Account.moved c) (AMap.only M st.accounts)
    warnings := st.warnings.filter fun r => K r.idx.directive }

/-- Only those directives. -/
def keepB (K : Nat → Bool) (bk : List Booked.Directive) : List Booked.Directive := bk.filter fun d => K d.idx

/-- The position among those. -/
def posIn (K : Nat → Bool) (bk : List Booked.Directive) (i : Nat) : Nat := countTo (fun d : Booked.Directive => K d.idx) bk i

/-- Only those reports. -/
def keepE (K : Nat → Bool) (es : List IndexedReport) : List IndexedReport := es.filter fun r => K r.idx.directive

/-- Only those accounts and directives. -/
def Run.keep (M : Str → Bool) (K : Nat → Bool) (r : Run L) : Run L :=
  { st := r.st.keep M K (posIn K r.booked), booked := keepB K r.booked, errors := keepE K r.errors }

/-- The result of a step. -/
def Res.keep {α : Type} (M : Str → Bool) (K : Nat → Bool) (c : Nat → Nat) (g : α → α) : Res (State L) α → Res (State L) α
  | .ok st a => .ok (st.keep M K c) (g a)
  | .err st e => .err (st.keep M K c) e
  | .panic => .panic

/-- The result of a lookup. -/
def Got.moved (c : Nat → Nat) : Got (Account L) → Got (Account L)
  | .ok a => .ok (a.moved c)
  | .err e => .err e
  | .panic => .panic

section
variable {M : Str → Bool} {K : Nat → Bool} {c : Nat → Nat}

theorem State.keep_accounts {st : State L} {a : Str} (ha : M a = true) :
    (st.keep M K c).accounts.get a = (st.accounts.get a).map (Account.moved c) := by
  show (AMap.mapV (Account.moved c) (AMap.only M st.accounts)).get a = _
  rw [AMap.get_mapV, AMap.get_only M ha]

theorem State.keep_opened {st : State L} {a : Str} (ha : M a = true) : (st.keep M K c).opened.get a = st.opened.get a :=
  AMap.get_only M ha _

theorem State.keep_closed {st : State L} {a : Str} (ha : M a = true) : (st.keep M K c).closed.get a = st.closed.get a :=
  AMap.get_only M ha _

theorem State.keep_setAccount {st : State L} {a : Str} (ha : M a = true) (x : Account L) :
    (st.keep M K c).setAccount a (x.moved c) = (st.setAccount a x).keep M K c := by
  unfold State.setAccount State.keep
  simp only [AMap.set_mapV, AMap.set_only M ha]

theorem State.keep_setAccount_ne {st : State L} {a : Str} (ha : M a = false) (x : Account L) :
    (st.setAccount a x).keep M K c = st.keep M K c := by
  unfold State.setAccount State.keep
  simp only [AMap.set_only_ne M ha]

theorem State.keep_validateAccount {st : State L} {a : Str} (ha : M a = true) (e : ElementIdx) :
    (st.keep M K c).validateAccount a e = st.validateAccount a e := by
  unfold State.validateAccount AMap.has
  rw [State.keep_opened ha, State.keep_closed ha]

theorem State.keep_getValidAccount {st : State L} {a : Str} (ha : M a = true) (e : ElementIdx) :
    (st.keep M K c).getValidAccount a e = (st.getValidAccount a e).moved c := by
  unfold State.getValidAccount
  rw [State.keep_validateAccount ha, State.keep_accounts ha]
  cases st.validateAccount a e with
  | some x => rfl
  | none => cases st.accounts.get a <;> rfl

theorem Account.moved_validateCurrency (a : Account L) (cur : Str) (e : ElementIdx) :
    (a.moved c).validateCurrency cur e = a.validateCurrency cur e := rfl

theorem State.keep_validateAccountAndCurrency {st : State L} {a : Str} (ha : M a = true) (cur : Str) (e : ElementIdx) :
    (st.keep M K c).validateAccountAndCurrency a cur e = st.validateAccountAndCurrency a cur e := by
  unfold State.validateAccountAndCurrency
  rw [State.keep_getValidAccount ha]
  cases st.getValidAccount a e <;> rfl

theorem State.keep_firstPostingError {st : State L} (e : ElementIdx) (i : Nat) (zs : List (Interpolated × Raw.PostingSpec))
    (h : ∀ z ∈ zs, M z.2.acc = true) : (st.keep M K c).firstPostingError e i zs = st.firstPostingError e i zs := by
  induction zs generalizing i with
  | nil => rfl
  | cons z zs ih =>
    obtain ⟨ip, p⟩ := z
    simp only [State.firstPostingError]
    rw [State.keep_validateAccountAndCurrency (a := p.acc) (h (ip, p) (by simp))]
    cases st.validateAccountAndCurrency p.acc ip.currency { directive := e.directive, posting := some i } with
    | ok u => exact ih (i + 1) fun z hz => h z (by simp [hz])
    | err x => rfl
    | panic => rfl

theorem State.keep_installInventory (e : ElementIdx) (st : State L) (us : List (Str × L.Pos)) (h : ∀ u ∈ us, M u.1 = true) :
    State.installInventory e (st.keep M K c) us = (State.installInventory e st us).keep M K c id := by
  induction us generalizing st with
  | nil => rfl
  | cons u us ih =>
    obtain ⟨a, pos⟩ := u
    have ha : M a = true := h (a, pos) (by simp)
    simp only [State.installInventory, State.keep_getValidAccount ha]
    cases st.getValidAccount a e with
    | err x => rfl
    | panic => rfl
    | ok x =>
      simp only [Got.moved]
      rw [← ih _ fun u hu => h u (by simp [hu]), ← State.keep_setAccount ha]
      rfl

/-- Installing holdings of other accounts. -/
theorem State.keep_installInventory_ne (e : ElementIdx) (st st' : State L) (us : List (Str × L.Pos)) (h : ∀ u ∈ us, M u.1 = false)
    (hs : State.installInventory e st us = .ok st' () ∨ ∃ x, State.installInventory e st us = .err st' x) :
    st'.keep M K c = st.keep M K c := by
  induction us generalizing st with
  | nil =>
    rcases hs with hs | ⟨x, hs⟩ <;> simp only [State.installInventory, Res.ok.injEq, reduceCtorEq] at hs
    rw [hs.1]
  | cons u us ih =>
    obtain ⟨a, pos⟩ := u
    have ha : M a = false := h (a, pos) (by simp)
    simp only [State.installInventory] at hs
    cases hg : st.getValidAccount a e with
    | err x =>
      rw [hg] at hs
      rcases hs with hs | ⟨x, hs⟩
      · cases hs
      · cases hs; rfl
    | panic =>
      rw [hg] at hs
      rcases hs with hs | ⟨x, hs⟩ <;> cases hs
    | ok x =>
      rw [hg] at hs
      rw [ih _ (fun u hu => h u (by simp [hu])) hs, State.keep_setAccount_ne ha]

theorem State.keep_inventory {st : State L} {a : Str} (ha : M a = true) : (st.keep M K c).inventory a = st.inventory a := by
  unfold State.inventory
  rw [State.keep_accounts ha]
  cases st.accounts.get a <;> rfl

theorem State.keep_bookingFor {env : Env L} {st : State L} {a : Str} (ha : M a = true) :
    (st.keep M K c).bookingFor env a = st.bookingFor env a := by
  unfold State.bookingFor
  rw [State.keep_accounts ha]
  cases st.accounts.get a <;> rfl

theorem State.keep_transaction (hL : L.Lawful) (hl : LooksAtItsAccounts L) (env : Env L) (st : State L) (t : Raw.Transaction) (date : Date)
    (e : ElementIdx) (h : ∀ p ∈ t.postings, M p.acc = true) :
    (st.keep M K c).transaction env t date e = (st.transaction env t date e).keep M K c id := by
  unfold State.transaction State.book
  rw [hl date t.postings env.tolerance (st.keep M K c).inventory st.inventory ((st.keep M K c).bookingFor env) (st.bookingFor env)
    fun p hp => ⟨State.keep_inventory (h p hp), State.keep_bookingFor (h p hp)⟩]
  cases hb : L.book date t.postings env.tolerance st.inventory (st.bookingFor env) with
  | error x => cases x <;> rfl
  | ok r =>
    simp only
    rw [State.keep_firstPostingError _ _ _ fun z hz => h z.2 (List.of_mem_zip hz).2]
    cases st.firstPostingError e 0 (r.interpolated.zip t.postings) with
    | err x => rfl
    | panic => rfl
    | ok u =>
      simp only
      rw [State.keep_installInventory _ _ _ fun u hu => by
        obtain ⟨p, hp, ha⟩ := hL.book_accounts _ _ _ _ _ _ hb u.1 u.2 hu
        rw [← ha]; exact h p hp]
      cases State.installInventory e st r.updated <;> rfl

theorem State.keep_transaction_ne (hL : L.Lawful) (env : Env L) (st st' : State L) (t : Raw.Transaction) (date : Date)
    (e : ElementIdx) (h : ∀ p ∈ t.postings, M p.acc = false)
    (hs : (∃ v, st.transaction env t date e = .ok st' v) ∨ ∃ x, st.transaction env t date e = .err st' x) :
    st'.keep M K c = st.keep M K c := by
  rcases hs with ⟨v, hs⟩ | ⟨x, hs⟩
  · obtain ⟨r, hb, -, hi, -⟩ := State.transaction_ok hs
    refine State.keep_installInventory_ne e st st' r.updated (fun u hu => ?_) (Or.inl hi)
    obtain ⟨p, hp, ha⟩ := hL.book_accounts _ _ _ _ _ _ hb u.1 u.2 hu
    rw [← ha]; exact h p hp
  · rcases State.transaction_err hs with ⟨rfl, -⟩ | ⟨rfl, -⟩ | ⟨r, hb, ⟨rfl, -⟩ | ⟨-, hi⟩⟩
    · rfl
    · rfl
    · rfl
    · refine State.keep_installInventory_ne e st st' r.updated (fun u hu => ?_) (Or.inr ⟨x, hi⟩)
      obtain ⟨p, hp, ha⟩ := hL.book_accounts _ _ _ _ _ _ hb u.1 u.2 hu
      rw [← ha]; exact h p hp

theorem State.keep_totalRollupUnits {env : Env L} (hf : env.Fair) (st : State L) (base cur : Str)
    (h : ∀ k ∈ AMap.keys st.accounts, isNonstrictSubaccount base k = true → M k = true) :
    (st.keep M K c).totalRollupUnits env base cur = st.totalRollupUnits env base cur := by
  unfold State.totalRollupUnits
  rw [Dec.sum_perm ((hf st.accounts).filter _ |>.map _), Dec.sum_perm ((hf (st.keep M K c).accounts).filter _ |>.map _)]
  congr 1
  simp only [State.keep, AMap.mapV, AMap.only]
  unfold AMap.keys at h
  generalize st.accounts = l at h ⊢
  induction l with
  | nil => rfl
  | cons ka m ih =>
    have ih := ih fun k hk => h k (by simp [hk])
    have h0 := h ka.1 (by simp)
    rw [List.filter_cons]
    cases hM : M ka.1 with
    | true =>
      simp only [if_true, List.map_cons, List.filter_cons]
      split
      · simp only [List.map_cons]; rw [ih]; rfl
      · exact ih
    | false =>
      have : isNonstrictSubaccount base ka.1 = false := by
        by_contra hc
        rw [h0 (by simpa using hc)] at hM
        cases hM
      simp only [Bool.false_eq_true, if_false, List.filter_cons, this]
      exact ih

theorem State.keep_marginOf {env : Env L} (hf : env.Fair) (st : State L) (b : Raw.Balance)
    (h : ∀ k ∈ AMap.keys st.accounts, isNonstrictSubaccount b.acc k = true → M k = true) :
    (st.keep M K c).marginOf env b = st.marginOf env b := by
  unfold State.marginOf
  rw [State.keep_totalRollupUnits hf _ _ _ h]

theorem State.keep_opn {env : Env L} (st : State L) (o : Raw.Open) (e : ElementIdx) (h : M o.acc = true) (hK : K e.directive = true) :
    (st.keep M K c).opn env o e = (st.opn env o e).keep M K c id := by
  have h3 : (st.keep M K c).opened.set o.acc e = AMap.only M (st.opened.set o.acc e) := AMap.set_only M h _ _
  have h4 : ∀ bk : Booking, (st.keep M K c).accounts.set o.acc (Account.new (o.currencies.getD []) bk e) =
      AMap.mapV (Account.moved c) (AMap.only M (st.accounts.set o.acc (Account.new (o.currencies.getD []) bk e))) := by
    intro bk
    rw [← AMap.set_only M h]
    exact AMap.set_mapV (Account.moved c) _ _ (Account.new (o.currencies.getD []) bk e)
  unfold State.opn
  rw [State.keep_opened h]
  cases st.opened.get o.acc with
  | some p => rfl
  | none =>
    simp only [State.keep_closed h]
    cases st.closed.get o.acc with
    | some q =>
      simp only [h3, Res.keep]
      rfl
    | none =>
      simp only [h3, h4, Res.keep, id]
      congr 1
      unfold State.keep
      simp only [List.filter_append, State.mk.injEq, true_and]
      congr 1
      · congr 1
        split <;> simp [ElementIdx.report, hK]
      · cases o.booking with
        | none => rfl
        | some b =>
          simp only
          split <;> simp [ElementIdx.report, hK]

theorem State.keep_opn_ne {env : Env L} (st st' : State L) (o : Raw.Open) (e : ElementIdx) (h : M o.acc = false) (hK : K e.directive = false)
    (hs : (∃ v, st.opn env o e = .ok st' v) ∨ ∃ x, st.opn env o e = .err st' x) : st'.keep M K c = st.keep M K c := by
  unfold State.opn at hs
  cases h1 : st.opened.get o.acc with
  | some p =>
    simp only [h1] at hs
    rcases hs with ⟨v, hs⟩ | ⟨x, hs⟩
    · cases hs
    · cases hs; rfl
  | none =>
    simp only [h1] at hs
    cases h2 : st.closed.get o.acc with
    | some q =>
      simp only [h2] at hs
      rcases hs with ⟨v, hs⟩ | ⟨x, hs⟩
      · cases hs
      · cases hs
        unfold State.keep
        simp only [AMap.set_only_ne M h]
    | none =>
      simp only [h2] at hs
      rcases hs with ⟨v, hs⟩ | ⟨x, hs⟩
      · cases hs
        unfold State.keep
        simp only [AMap.set_only_ne M h, List.filter_append, State.mk.injEq, true_and]
        have e1 : ∀ l : List IndexedReport, (∀ x ∈ l, x.idx = e) → l.filter (fun r => K r.idx.directive) = [] := by
          intro l hl
          rw [List.filter_eq_nil_iff]
          intro x hx
          rw [hl x hx, hK]
          simp
        refine (congrArg₂ (· ++ ·) (congrArg₂ (· ++ ·) rfl (e1 _ ?_)) (e1 _ ?_)).trans (by simp)
        · split <;> simp [ElementIdx.report]
        · split
          · split <;> simp [ElementIdx.report]
          · simp
      · cases hs

theorem State.keep_close (st : State L) (cl : Raw.Close) (e : ElementIdx) (h : M cl.acc = true) :
    (st.keep M K c).close cl e = (st.close cl e).keep M K c id := by
  have h3 : (st.keep M K c).closed.set cl.acc e = AMap.only M (st.closed.set cl.acc e) := AMap.set_only M h _ _
  have h4 : (st.keep M K c).opened.del cl.acc = AMap.only M (st.opened.del cl.acc) := AMap.del_only M h _
  unfold State.close
  rw [State.keep_opened h, State.keep_closed h, h3, h4]
  cases st.opened.get cl.acc with
  | none => rfl
  | some p => cases st.closed.get cl.acc <;> rfl

theorem State.keep_close_ne (st st' : State L) (cl : Raw.Close) (e : ElementIdx) (h : M cl.acc = false)
    (hs : (∃ v, st.close cl e = .ok st' v) ∨ ∃ x, st.close cl e = .err st' x) : st'.keep M K c = st.keep M K c := by
  rcases hs with ⟨v, hs⟩ | ⟨x, hs⟩
  · obtain ⟨-, -, -, rfl⟩ := State.close_ok hs
    unfold State.keep
    simp only [AMap.del_only_ne M h, AMap.set_only_ne M h]
  · rw [(State.close_err hs).1]

theorem State.keep_pad (st : State L) (p : Raw.Pad) (i : Nat) (e : ElementIdx) (h : M p.acc = true) :
    (st.keep M K c).pad p (c i) e = (st.pad p i e).keep M K c id := by
  unfold State.pad
  rw [State.keep_getValidAccount h]
  cases st.getValidAccount p.acc e with
  | err x => rfl
  | panic => rfl
  | ok a =>
    simp only [Got.moved]
    obtain ⟨al, po, op, pd, wi, bo⟩ := a
    cases pd with
    | none =>
      simp only [Account.moved, Option.map_none, Res.keep]
      rw [← State.keep_setAccount h]
      rfl
    | some ie =>
      simp only [Account.moved, Option.map_some, Res.keep]
      rw [← State.keep_setAccount h]
      rfl

theorem State.keep_pad_ne (st st' : State L) (p : Raw.Pad) (i : Nat) (e : ElementIdx) (h : M p.acc = false)
    (hs : (∃ v, st.pad p i e = .ok st' v) ∨ ∃ x, st.pad p i e = .err st' x) : st'.keep M K c = st.keep M K c := by
  rcases hs with ⟨⟨v, v'⟩, hs⟩ | ⟨x, hs⟩
  · obtain ⟨a, -, -, -, rfl, -⟩ := State.pad_ok hs
    exact State.keep_setAccount_ne h _
  · rcases State.pad_err hs with ⟨rfl, -⟩ | ⟨a, j, u, -, -, -, rfl, -⟩
    · rfl
    · exact State.keep_setAccount_ne h _

/-! ### Assertions -/

theorem keepB_setPostingsAt {bk : List Booked.Directive} {i : Nat} {d : Booked.Directive} {t : Booked.Transaction} (h : bk[i]? = some d)
    (hv : d.variant = .transaction t) (hK : K d.idx = true) (ps : List Booked.Posting) :
    setPostingsAt (keepB K bk) (posIn K bk i) ps = (setPostingsAt bk i ps).map (keepB K) := by
  have h1 : setPostingsAt bk i ps = some (bk.set i { d with variant := .transaction { t with postings := ps } }) :=
    setPostingsAt_some.2 ⟨d, t, h, hv, rfl⟩
  rw [h1, Option.map_some]
  unfold keepB
  rw [filter_set_pos (fun d : Booked.Directive => K d.idx) h hK (by simpa using hK)]
  exact setPostingsAt_some.2 ⟨d, t, get_countTo _ h hK, hv, rfl⟩

theorem State.keep_fillPad (st : State L) (b : Raw.Balance) (m : Dec) (i : Nat) (bk : List Booked.Directive)
    {d d2 : Booked.Directive} {p : Raw.Pad} {t : Booked.Transaction} (h1 : bk[i]? = some d) (h2 : d.variant = .pad p)
    (h3 : bk[i+1]? = some d2) (h4 : d2.variant = .transaction t) (h5 : d2.idx = d.idx) (hK : K d.idx = true) (hM : M p.source = true) :
    (st.keep M K c).fillPad b m (posIn K bk i) (keepB K bk) = (st.fillPad b m i bk).keep M K c (fun vb => (vb.1, keepB K vb.2)) := by
  have e1 : (keepB K bk)[posIn K bk i]? = some d := get_countTo (fun d : Booked.Directive => K d.idx) h1 hK
  have e2 : posIn K bk i + 1 = posIn K bk (i + 1) := (countTo_succ (fun d : Booked.Directive => K d.idx) h1 hK).symm
  unfold State.fillPad
  rw [e1, h1, e2]
  obtain ⟨idx, date, tags, links, md, v⟩ := d
  simp only at h2
  subst h2
  simp only
  rw [keepB_setPostingsAt h3 h4 (by rw [h5]; exact hK)]
  cases setPostingsAt bk (i + 1) (calculateBalancePadPostings b.cur m b.acc p.source) with
  | none => rfl
  | some bk' =>
    simp only [Option.map_some]
    rw [State.keep_accounts hM]
    cases st.accounts.get p.source with
    | none => rfl
    | some src =>
      simp only [Option.map_some, Res.keep]
      rw [← State.keep_setAccount hM]
      rfl

theorem Account.moved_advance {n n' : Nat} (a : Account L) (h0 : c 0 = 0) (h : c n = n') : (a.moved c).advance n' = (a.advance n).moved c := by
  obtain ⟨al, po, op, pd, wi, bo⟩ := a
  subst h
  cases wi with
  | none => simp [Account.moved, Account.advance, h0]
  | some w => simp [Account.moved, Account.advance]

theorem State.keep_balance {env : Env L} (hf : env.Fair) (st : State L) (b : Raw.Balance) (e : ElementIdx) (bk : List Booked.Directive)
    (hM : M b.acc = true) (hc : ∀ i, i ≤ bk.length → c i = posIn K bk i)
    (hb : ∀ k ∈ AMap.keys st.accounts, isNonstrictSubaccount b.acc k = true → M k = true)
    (hp : ∀ a i e, st.accounts.get b.acc = some a → a.pad = some (i, e) → PadAt bk b.acc i e)
    (hd : ∀ d ∈ bk, ∀ p, d.variant = .pad p → M p.acc = K d.idx ∧ M p.source = K d.idx) :
    (st.keep M K c).balance env b e (keepB K bk) = (st.balance env b e bk).keep M K c (fun vb => (vb.1, keepB K vb.2)) := by
  have hm := State.keep_marginOf (K := K) (c := c) hf st b hb
  unfold State.marginOf at hm
  have hlen : c bk.length = (keepB K bk).length := by
    rw [hc _ (Nat.le_refl _)]; exact countTo_length _ _
  have h0 : c 0 = 0 := by rw [hc _ (Nat.zero_le _)]; rfl
  unfold State.balance
  simp only [hm, State.keep_getValidAccount hM]
  cases hg : st.getValidAccount b.acc e with
  | err x => rfl
  | panic => rfl
  | ok a =>
    simp only [Got.moved, Account.moved_validateCurrency]
    cases a.validateCurrency b.cur e with
    | some x => rfl
    | none =>
      simp only [Account.moved_advance a h0 hlen]
      have hadj : ∀ m, ((a.advance bk.length).moved c).adjustAdd b.cur m = ((a.advance bk.length).adjustAdd b.cur m).moved c := fun m => rfl
      simp only [hadj, State.keep_setAccount hM]
      cases calculateBalanceMargin b.units (effectiveTolerance env b) (st.totalRollupUnits env b.acc b.cur) with
      | none =>
        simp only [Res.keep]
        congr 4
        simp [Account.moved, Option.map_map, Function.comp_def]
      | some m =>
        cases hpad : a.pad with
        | none => simp [Account.moved, hpad, Res.keep]
        | some ie =>
          obtain ⟨i, e0⟩ := ie
          obtain ⟨d, p, d2, t, g1, g2, g3, g4, g5, g6, g7, g8⟩ := hp a i e0 (State.getValidAccount_ok.1 hg).2 hpad
          have hdp := hd d (List.mem_of_getElem? g1) p g2
          have hi : c i = posIn K bk i := hc i (Nat.le_of_lt (List.getElem?_eq_some_iff.1 g1).1)
          simp only [Account.moved, hpad, Option.map_some, hi]
          exact State.keep_fillPad _ b m i bk g1 g2 g5 g6 g8 (by rw [← hdp.1, g3]; exact hM) (by rw [hdp.2, ← hdp.1, g3]; exact hM)

theorem diagnosePostings_none {base : Str} {date : Date} {text : Option Str} {total : Dec} {ps : List Booked.Posting}
    (h : ∀ p ∈ ps, isNonstrictSubaccount base p.acc = false) : diagnosePostings base date text total ps = (total, []) := by
  induction ps with
  | nil => rfl
  | cons p ps ih =>
    simp only [diagnosePostings, h p (by simp), Bool.false_eq_true, if_false]
    exact ih fun q hq => h q (by simp [hq])

theorem diagnose_keepB {base : Str} {l : List Booked.Directive}
    (h : ∀ d ∈ l, K d.idx = false → ∀ t, d.variant = .transaction t → ∀ p ∈ t.postings, isNonstrictSubaccount base p.acc = false)
    (total : Dec) : diagnose base total (keepB K l) = diagnose base total l := by
  induction l generalizing total with
  | nil => rfl
  | cons d l ih =>
    have ih := ih fun d hd => h d (by simp [hd])
    unfold keepB at ih ⊢
    rw [List.filter_cons]
    cases hK : K d.idx with
    | true =>
      simp only [if_true, diagnose]
      cases d.variant <;> simp only [ih]
    | false =>
      simp only [Bool.false_eq_true, if_false, diagnose, ih]
      cases hv : d.variant with
      | transaction t => simp only [diagnosePostings_none (h d (by simp) hK t hv), List.nil_append]
      | _ => rfl

/-- There is no assertion at the front. -/
def NoAssertionFirst (bk : List Booked.Directive) : Prop := ∀ d, bk[0]? = some d → ∀ b, d.variant ≠ .balance b

theorem reportBase_zero {cur : Str} {n : Nat} {bk : List Booked.Directive} (h : NoAssertionFirst bk) : reportBase cur ⟨0, n⟩ bk = Dec.zero := by
  unfold reportBase
  split
  · rename_i bal hb
    exact absurd rfl (h _ hb bal)
  · rfl

theorem State.keep_balanceReport (st : State L) (base : Str) (m : Dec) (cur : Str) (e : ElementIdx) (bk : List Booked.Directive)
    (hM : M base = true) (hc : ∀ i, i ≤ bk.length → c i = posIn K bk i)
    (hw : ∀ a w, st.accounts.get base = some a → a.window = some w → w.start ≤ w.stop ∧ w.stop ≤ bk.length ∧
      ((∃ d, bk[w.start]? = some d ∧ K d.idx = true) ∨ (w.start = 0 ∧ NoAssertionFirst bk ∧ NoAssertionFirst (keepB K bk))))
    (h : ∀ d ∈ bk, K d.idx = false → ∀ t, d.variant = .transaction t → ∀ p ∈ t.postings, isNonstrictSubaccount base p.acc = false) :
    (st.keep M K c).balanceReport base m cur e (keepB K bk) = st.balanceReport base m cur e bk := by
  unfold State.balanceReport
  rw [State.keep_accounts hM]
  cases ha : st.accounts.get base with
  | none => rfl
  | some a =>
    simp only [Option.map_some]
    cases hwin : a.window with
    | none => simp [Account.moved, hwin]
    | some w =>
      obtain ⟨h1, h2, h3⟩ := hw a w ha hwin
      have e1 : c w.start = posIn K bk w.start := hc _ (Nat.le_trans h1 h2)
      have e2 : c w.stop = posIn K bk w.stop := hc _ h2
      have e3 : reportBase cur ⟨posIn K bk w.start, posIn K bk w.stop⟩ (keepB K bk) = reportBase cur w bk := by
        rcases h3 with ⟨d, h3, h4⟩ | ⟨h3, h4, h5⟩
        · unfold reportBase
          have : (keepB K bk)[posIn K bk w.start]? = some d := get_countTo (fun d : Booked.Directive => K d.idx) h3 h4
          simp only [this, h3]
        · obtain ⟨s, t⟩ := w
          simp only at h3
          subst h3
          rw [reportBase_zero h4]
          exact reportBase_zero h5
      have e4 : ((keepB K bk).take (posIn K bk w.stop)).drop (posIn K bk w.start) = keepB K ((bk.take w.stop).drop w.start) :=
        slice_countTo _ _ h1
      have e5 : diagnose base (reportBase cur w bk) (keepB K ((bk.take w.stop).drop w.start)) =
          diagnose base (reportBase cur w bk) ((bk.take w.stop).drop w.start) :=
        diagnose_keepB (fun d hd => h d (List.mem_of_mem_take (List.mem_of_mem_drop hd))) _
      have e6 : posIn K bk w.start ≤ posIn K bk w.stop ∧ posIn K bk w.stop ≤ (keepB K bk).length :=
        ⟨countTo_mono _ _ h1, countTo_le _ _ _⟩
      simp only [Account.moved, hwin, Option.map_some, e1, e2, e3, e4, e5]
      rw [if_pos e6, if_pos ⟨h1, h2⟩]

end

end Limabean
