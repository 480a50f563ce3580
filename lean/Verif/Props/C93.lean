/-
C93: the books balance if the transactions do.
-/
import Verif.Spec.Trial
import Verif.Props.C01
import Verif.Props.C08
import Verif.Props.C70

namespace Limabean

open Clj Spec

variable {E : Ext} {L : BookLib}

/-! ### Sums -/

theorem amount_append (f : Booked.Posting → ℚ) (a b : List Booked.Directive) : amount f (a ++ b) = amount f a + amount f b := by
  simp [amount, postings]

theorem amount_cons (f : Booked.Posting → ℚ) (d : Booked.Directive) (b : List Booked.Directive) :
    amount f (d :: b) = amount f [d] + amount f b := amount_append f [d] b

/-- Directives which count for nothing may be left out. -/
theorem amount_filter {f : Booked.Posting → ℚ} {out : List Booked.Directive} {p : Booked.Directive → Prop} [DecidablePred p]
    (h : ∀ d ∈ out, ¬ p d → amount f [d] = 0) : amount f out = amount f (out.filter fun d => p d) := by
  induction out with
  | nil => rfl
  | cons d out ih =>
    have ih := ih fun x hx => h x (by simp [hx])
    by_cases hp : p d
    · rw [List.filter_cons_of_pos (by simpa using hp), amount_cons, amount_cons f d (List.filter _ _), ih]
    · rw [List.filter_cons_of_neg (by simpa using hp), amount_cons, h d (by simp) hp, zero_add, ih]

theorem amount_le {f : Booked.Posting → ℚ} {out : List Booked.Directive} {ε : ℚ} (h : ∀ d ∈ out, |amount f [d]| ≤ ε) :
    |amount f out| ≤ out.length * ε := by
  induction out with
  | nil => simp [amount, postings]
  | cons d out ih =>
    have ih := ih fun x hx => h x (by simp [hx])
    have hd := h d (by simp)
    rw [amount_cons]
    have := abs_add_le (amount f [d]) (amount f out)
    push_cast [List.length_cons]
    linarith

/-- The transactions which pads make are those which are not written, and they count for nothing. -/
theorem image_unwritten {f : Booked.Posting → ℚ} (hf : ∀ cur gap a b, ((padPostings cur gap a b).map f).sum = 0) {n : Nat}
    {pre ds : List Raw.Directive} {out : List Booked.Directive} (h : Image n ds out) (hn : n = pre.length)
    (hp : ∀ o1 x rest p, out = o1 ++ x :: rest → x.variant = .pad p → ∃ y o2 t cur gap, rest = y :: o2 ∧ y.variant = .transaction t ∧
      t.postings = padPostings cur gap p.acc p.source) :
    ∀ d ∈ out, ¬ IsWritten (pre ++ ds) d → amount f [d] = 0 := by
  induction h generalizing pre with
  | nil => intro d hd; cases hd
  | @single n raw b rs bs h1 h2 h3 h4 ih =>
    intro d hd hw
    rcases List.mem_cons.1 hd with rfl | hd
    · by_contra hne
      apply hw
      have hidx : (pre ++ raw :: rs)[d.idx]? = some raw := by rw [h2.idx, hn]; simp
      generalize hv : raw.variant = v at h3
      generalize hv' : d.variant = v' at h3
      cases h3 with
      | transaction t ps => exact (by rw [IsWritten, hidx]; simp [isTransaction, hv])
      | _ => exact absurd (by simp [amount, postings, postingsOf, hv']) hne
    · have := ih (pre := pre ++ [raw]) (by simp [hn]) (fun o1 x rest p ho hx => by
        obtain ⟨y, o2, t, cur, gap, h5⟩ := hp (b :: o1) x rest p (by rw [ho]; rfl) hx
        exact ⟨y, o2, t, cur, gap, h5⟩) d hd
      rw [List.append_assoc, List.singleton_append] at this
      exact this hw
  | @padded n raw b b' rs bs h1 h2 h3 h4 h5 h6 ih =>
    intro d hd hw
    have hb : ∃ p, b.variant = .pad p := by
      unfold isPad at h1
      generalize hv : raw.variant = v at h3 h1
      generalize hv' : b.variant = v' at h3
      cases h3 with
      | pad p => exact ⟨p, rfl⟩
      | _ => cases h1
    obtain ⟨p, hb⟩ := hb
    rcases List.mem_cons.1 hd with rfl | hd
    · simp [amount, postings, postingsOf, hb]
    rcases List.mem_cons.1 hd with rfl | hd
    · obtain ⟨y, o2, t, cur, gap, h7, h8, h9⟩ := hp [] b (d :: bs) p rfl hb
      cases h7
      simp only [amount, postings, List.flatMap_cons, List.flatMap_nil, List.append_nil, postingsOf, h8, h9, hf]
    · have := ih (pre := pre ++ [raw]) (by simp [hn]) (fun o1 x rest p ho hx => by
        obtain ⟨y, o2, t, cur, gap, h5⟩ := hp (b :: b' :: o1) x rest p (by rw [ho]; rfl) hx
        exact ⟨y, o2, t, cur, gap, h5⟩) d hd
      rw [List.append_assoc, List.singleton_append] at this
      exact this hw

theorem units_pad (cur c : Str) (gap : Dec) (a b : Str) : ((padPostings c gap a b).map (unitsIn cur)).sum = 0 := by
  simp only [padPostings, List.map_cons, List.map_nil, List.sum_cons, List.sum_nil, unitsIn]
  split
  · simp [Dec.val]
    ring
  · simp

theorem weight_pad (cur c : Str) (gap : Dec) (a b : Str) : ((padPostings c gap a b).map (weightIn cur)).sum = 0 := by
  rw [← units_pad cur c gap a b]
  rfl

/-! ### The inventory -/

/-- Sums by account, and the sum of all. -/
theorem sum_accounts {α : Type} (acc : α → Str) (q : α → ℚ) {V : Type} (T : V → ℚ) {inv : List (Str × V)}
    (hn : (inv.map Prod.fst).Nodup) : ∀ {l : List α}, (∀ a, (match AMap.get inv a with | some v => T v | none => 0) =
      ((l.filter fun x => acc x = a).map q).sum) → (inv.map fun x => T x.2).sum = (l.map q).sum := by
  have split : ∀ (a : Str) (l : List α), (l.map q).sum = ((l.filter fun x => acc x = a).map q).sum +
      ((l.filter fun x => acc x ≠ a).map q).sum := by
    intro a l
    induction l with
    | nil => simp
    | cons x l ih =>
      by_cases h : acc x = a
      · simp only [List.map_cons, List.sum_cons, ih, List.filter_cons, h, decide_true, if_true, ne_eq, not_true_eq_false, decide_false,
          Bool.false_eq_true, if_false]
        ring
      · simp only [List.map_cons, List.sum_cons, ih, List.filter_cons, h, decide_true, if_true, ne_eq, not_false_eq_true, decide_false,
          Bool.false_eq_true, if_false]
        ring
  have other : ∀ (a b : Str) (l : List α), b ≠ a → (l.filter fun x => acc x ≠ a).filter (fun x => acc x = b) = l.filter fun x => acc x = b := by
    intro a b l h
    rw [List.filter_filter]
    refine List.filter_congr fun x _ => ?_
    by_cases hx : acc x = b <;> simp [hx, h]
  induction inv with
  | nil =>
    intro l h
    induction hl : l.length using Nat.strong_induction_on generalizing l with
    | _ n ih =>
      cases l with
      | nil => rfl
      | cons x l =>
        rw [split (acc x), ← h (acc x)]
        have hlen : ((x :: l).filter fun y => acc y ≠ acc x).length < n := by
          subst hl
          simp only [List.filter_cons, ne_eq, not_true_eq_false, decide_false, Bool.false_eq_true, if_false, List.length_cons]
          exact Nat.lt_succ_of_le (List.length_filter_le _ _)
        rw [← ih _ hlen (l := (x :: l).filter fun y => acc y ≠ acc x) (fun a => by
          by_cases ha : a = acc x
          · subst ha
            rw [List.filter_filter, List.filter_eq_nil_iff.2]
            · rfl
            · intro y _
              simp
          · rw [other _ _ _ ha]
            exact h a) rfl]
        simp [AMap.get]
  | cons kv inv ih =>
    obtain ⟨k, v⟩ := kv
    intro l h
    rw [List.map_cons, List.nodup_cons] at hn
    rw [List.map_cons, List.sum_cons, split k l, ← h k]
    congr 1
    · simp [AMap.get]
    · refine ih hn.2 fun a => ?_
      by_cases ha : a = k
      · subst ha
        rw [List.filter_filter, List.filter_eq_nil_iff.2]
        · have : AMap.get inv a = none := by
            by_contra hne
            obtain ⟨v', hv'⟩ := Option.ne_none_iff_exists'.1 hne
            exact hn.1 (List.mem_map.2 ⟨_, AMap.mem_of_get hv', rfl⟩)
          rw [this]
          rfl
        · intro y _
          simp
      · rw [other _ _ _ ha, ← h a]
        have : AMap.get ((k, v) :: inv) a = AMap.get inv a := by simp [AMap.get, Ne.symm ha]
        rw [this]

/-- All units of an inventory are those of the selected postings. -/
theorem inventory_total {b : Beans} {fs : List Filter} {inv : AMap Str (List Position)} (h : inventory b fs = some inv) (cur : Str) :
    grandTotal inv cur = ((selection b.directives fs).map fun x => unitsIn cur x.posting).sum := by
  unfold grandTotal
  refine sum_accounts (fun x : Posted => x.posting.acc) (fun x => unitsIn cur x.posting)
    (fun ps => totalUnits Position.units ps fun p => p.cur = cur) ?_ fun a => ?_
  · refine List.Pairwise.imp (S := (· ≠ ·)) (fun {a b} (hab : a < b) => ?_) (build_keys_sorted h)
    rintro rfl
    exact List.lt_irrefl _ hab
  · have := C34_inventory b fs inv h a cur
    refine Eq.trans (b := totalUnits Position.units ((AMap.get inv a).getD []) fun p => p.cur = cur) (by cases AMap.get inv a <;> rfl) ?_
    rw [this]
    clear this
    unfold totalUnits
    induction selection b.directives fs with
    | nil => rfl
    | cons x l ih =>
      by_cases hx : x.posting.acc = a <;> by_cases hc : x.posting.cur = cur <;> simp_all [unitsIn]

/-- Filters by date select whole transactions. -/
theorem selection_period {fs : List Filter} (hf : ∀ f ∈ fs, ByDate f) (out : List Booked.Directive) (g : Booked.Posting → ℚ) :
    ((selection out fs).map fun x => g x.posting).sum = amount g (out.filter fun d => InPeriod fs d) := by
  induction out with
  | nil => rfl
  | cons d out ih =>
    have hs : selection (d :: out) fs = selection [d] fs ++ selection out fs := by simp [selection, allPosted]
    have hd : ((selection [d] fs).map fun x => g x.posting).sum = if InPeriod fs d then amount g [d] else 0 := by
      have hsel : ∀ t : Booked.Transaction, ∀ p : Booked.Posting, Selected fs ⟨d.date, t.payee, t.narration, p⟩ ↔ InPeriod fs d := by
        intro t p
        unfold Selected InPeriod
        refine forall₂_congr fun f h => ?_
        rw [hf f h (Posted.seen ⟨d.date, t.payee, t.narration, p⟩) { date := some d.date } rfl]
      unfold selection allPosted amount postings postingsOf
      simp only [List.flatMap_cons, List.flatMap_nil, List.append_nil]
      cases hv : d.variant with
      | transaction t =>
        dsimp only
        rw [List.filter_map, List.map_map]
        by_cases hp : InPeriod fs d
        · rw [if_pos hp, List.filter_eq_self.2]
          · rfl
          · intro p _
            simpa using (hsel t p).2 hp
        · rw [if_neg hp, List.filter_eq_nil_iff.2]
          · rfl
          · intro p _
            simpa using fun h => hp ((hsel t p).1 h)
      | _ => by_cases hp : InPeriod fs d <;> simp [hp]
    rw [hs, List.map_append, List.sum_append, ih, hd]
    by_cases hp : InPeriod fs d
    · rw [if_pos hp, List.filter_cons_of_pos (by simpa using hp), amount_cons g d (List.filter _ _)]
    · rw [if_neg hp, List.filter_cons_of_neg (by simpa using hp), zero_add]

/-! ### The theorems -/

/-- **C93.** What all postings of a ledger add up to, in units or in weights, is what the user's transactions add up to: pads
add nothing. The same for all directives which satisfy some condition, such as having a date in some period. -/
theorem C93_written (order : AMap Str (Account L) → AMap Str (Account L)) (hf : ∀ m, (order m).Perm m) (o : BookOptions)
    {ds : List Raw.Directive} {out : List Booked.Directive} {w : List IndexedReport} (h : book L order o ds = .success out w) (cur : Str)
    (p : Booked.Directive → Prop) [DecidablePred p] :
    amount (unitsIn cur) (out.filter fun d => p d) = amount (unitsIn cur) (out.filter fun d => p d ∧ IsWritten ds d) ∧
    amount (weightIn cur) (out.filter fun d => p d) = amount (weightIn cur) (out.filter fun d => p d ∧ IsWritten ds d) := by
  have key : ∀ f : Booked.Posting → ℚ, (∀ cur gap a b, ((padPostings cur gap a b).map f).sum = 0) →
      amount f (out.filter fun d => p d) = amount f (out.filter fun d => p d ∧ IsWritten ds d) := by
    intro f hf'
    have h1 := image_unwritten hf' (pre := []) (C01_image L order o ds out w h) rfl
      (fun o1 x rest p' ho hx => C08_no_unused_pad L order hf o ds out w h o1 x rest p' ho hx)
    rw [amount_filter (p := IsWritten ds) (fun d hd hw => h1 d (List.mem_of_mem_filter hd) hw), List.filter_filter]
    congr 1
    refine List.filter_congr fun d _ => ?_
    rw [Bool.eq_iff_iff]
    simp [and_comm]
  exact ⟨key _ (units_pad cur), key _ (weight_pad cur)⟩

/-- **C93.** If each of the user's transactions in a period is off by at most `ε` in a currency, in units or in weights, then all
that is posted in the period is off by at most `ε` for each of them; by nothing if each is balanced. -/
theorem C93_balanced (order : AMap Str (Account L) → AMap Str (Account L)) (hf : ∀ m, (order m).Perm m) (o : BookOptions)
    {ds : List Raw.Directive} {out : List Booked.Directive} {w : List IndexedReport} (h : book L order o ds = .success out w) (cur : Str)
    (p : Booked.Directive → Prop) [DecidablePred p] (f : Booked.Posting → ℚ) (hfun : f = unitsIn cur ∨ f = weightIn cur) (ε : ℚ)
    (hb : ∀ d ∈ out, p d → IsWritten ds d → |amount f [d]| ≤ ε) :
    |amount f (out.filter fun d => p d)| ≤ (out.filter fun d => p d ∧ IsWritten ds d).length * ε := by
  have h1 := C93_written order hf o h cur p
  have h2 : amount f (out.filter fun d => p d) = amount f (out.filter fun d => p d ∧ IsWritten ds d) := by
    rcases hfun with rfl | rfl
    · exact h1.1
    · exact h1.2
  rw [h2]
  refine amount_le fun d hd => ?_
  rw [List.mem_filter, decide_eq_true_eq] at hd
  exact hb d hd.1 hd.2.1 hd.2.2

/-- **C93**, reports: the units of a currency in all accounts of an inventory, of the whole ledger or of a period, add up to those
of the user's transactions in the period. -/
theorem C93_inventory (order : AMap Str (Account L) → AMap Str (Account L)) (hf : ∀ m, (order m).Perm m) (o : BookOptions)
    {ds : List Raw.Directive} {out : List Booked.Directive} {w : List IndexedReport} (h : book L order o ds = .success out w)
    (lo : LedgerOptions) (reg : Registry) (fs : List Filter) (hfs : ∀ f ∈ fs, ByDate f) {inv : AMap Str (List Position)}
    (hi : inventory ⟨out, lo, reg⟩ fs = some inv) (cur : Str) :
    grandTotal inv cur = amount (unitsIn cur) (out.filter fun d => InPeriod fs d ∧ IsWritten ds d) := by
  rw [inventory_total hi, selection_period hfs]
  exact (C93_written order hf o h cur (InPeriod fs)).1

/-- Two names of which one is not at or below the other, nor the other way round. -/
def Spec.Apart2 (a b : Str) : Prop := ¬ Below a b ∧ ¬ Below b a

theorem not_below_both {a b x : Str} (h : Spec.Apart2 a b) : ¬ (Below a x ∧ Below b x) := by
  rintro ⟨h1, h2⟩
  rcases List.prefix_or_prefix_of_prefix h1 h2 with h3 | h3
  · exact h.1 h3
  · exact h.2 h3

/-- **C93**, the accounting equation: the balance sheet, the income statement and what is held in the accounts for equity add up
to what the user's transactions add up to; to nothing if they are balanced. Whatever the five kinds of accounts are called, if no name
is below another and every account is below one of them. -/
theorem C93_equation (order : AMap Str (Account L) → AMap Str (Account L)) (hf : ∀ m, (order m).Perm m) (o : BookOptions)
    {ds : List Raw.Directive} {out : List Booked.Directive} {w : List IndexedReport} (h : book L order o ds = .success out w)
    (lo : LedgerOptions) (reg : Registry) (fs : List Filter) (hfs : ∀ f ∈ fs, ByDate f) {inv bal inc : AMap Str (List Position)}
    (hi : inventory ⟨out, lo, reg⟩ fs = some inv) (hbal : balances ⟨out, lo, reg⟩ fs = some bal)
    (hinc : incomeStatement ⟨out, lo, reg⟩ fs = some inc)
    (hn : [lo.nameAssets, lo.nameLiabilities, lo.nameEquity, lo.nameIncome, lo.nameExpenses].Pairwise Apart2)
    (hk : ∀ acc ∈ inv.keys, ∃ n ∈ [lo.nameAssets, lo.nameLiabilities, lo.nameEquity, lo.nameIncome, lo.nameExpenses], Below n acc)
    (cur : Str) :
    grandTotal bal cur + grandTotal inc cur + subtotal inv cur lo.nameEquity =
      amount (unitsIn cur) (out.filter fun d => InPeriod fs d ∧ IsWritten ds d) := by
  rw [← C93_inventory order hf o h lo reg fs hfs hi cur]
  obtain ⟨h1, h2⟩ := C34_restrictions ⟨out, lo, reg⟩ fs inv hi
  rw [hbal] at h1
  rw [hinc] at h2
  cases h1
  cases h2
  simp only [List.pairwise_cons, List.mem_cons, List.not_mem_nil, or_false, forall_eq_or_imp, forall_eq, List.Pairwise.nil, and_true,
    false_imp_iff, implies_true] at hn
  obtain ⟨⟨al, aq, ai, ax⟩, ⟨lq, li, lx⟩, ⟨qi, qx⟩, ix⟩ := hn
  unfold grandTotal subtotal
  have hk' : ∀ x ∈ inv, ∃ n ∈ [lo.nameAssets, lo.nameLiabilities, lo.nameEquity, lo.nameIncome, lo.nameExpenses], Below n x.1 :=
    fun x hx => hk _ (List.mem_map_of_mem hx)
  clear hi hbal hinc hk
  induction inv with
  | nil => simp
  | cons x inv ih =>
    have ih := ih fun y hy => hk' y (by simp [hy])
    obtain ⟨n, hn, hb⟩ := hk' x (by simp)
    simp only [List.mem_cons, List.not_mem_nil, or_false] at hn
    have no : ∀ {a b : Str}, Apart2 a b → Below a x.1 → ¬ Below b x.1 := fun hab h1 h2 => not_below_both hab ⟨h1, h2⟩
    have no' : ∀ {a b : Str}, Apart2 a b → Below b x.1 → ¬ Below a x.1 := fun hab h1 h2 => not_below_both hab ⟨h2, h1⟩
    simp only [List.filter_cons, decide_eq_true_eq, List.map_cons, List.sum_cons, ← ih]
    rcases hn with rfl | rfl | rfl | rfl | rfl
    · simp only [hb, no aq hb, no ai hb, no ax hb, true_or, or_false, if_true, if_false, List.map_cons, List.sum_cons]
      ring
    · simp only [hb, no lq hb, no li hb, no lx hb, or_true, or_false, if_true, if_false, List.map_cons, List.sum_cons]
      ring
    · simp only [hb, no' aq hb, no' lq hb, no qi hb, no qx hb, or_false, if_true, if_false, List.map_cons, List.sum_cons]
      ring
    · simp only [hb, no' ai hb, no' li hb, no' qi hb, true_or, or_false, if_true, if_false, List.map_cons, List.sum_cons]
      ring
    · simp only [hb, no' ax hb, no' lx hb, no' qx hb, or_true, or_false, if_true, if_false, List.map_cons, List.sum_cons]
      ring

/-- **C93**, of a beanfile without plugins which is loaded: what the inventory shows in all accounts together, now or for a period, is
what its transactions add up to. -/
theorem C93_loaded (F : Front E L) (hinj : Function.Injective F.hash) (ho : IsMapOrder F.ordm) (hs : IsOrder F.ord) (hE : SpanStore E)
    (hL : DatesExist L) (hord : ∀ n m, (F.orders n m).Perm m) (src : E.Sources) {p : Parsed} (hp : OptionsOk p.options)
    (hd : ∀ d ∈ p.directives, DatesOk d) (hon : OptionsNamed p.options) (hoo : (p.options.others.map Prod.fst).Nodup)
    (order : AMap Str Nat → AMap Str Nat) (hreg : F.registry = fun ds o => some (registryOf order ds o)) (hnp : p.plugins = [])
    {m : LoadedBeans E} (h : loadBeanfile F (.ready src (.ok p)) = .ok m) (he : m.error = none) :
    ∃ k out w, book L (F.orders k) (Server.bookOptions p.options) p.directives = .success out w ∧
      ∀ fs inv, m.inventory fs = some inv → (∀ f ∈ fs, ByDate f) → ∀ cur,
        grandTotal inv cur = amount (unitsIn cur) (out.filter fun d => InPeriod fs d ∧ IsWritten p.directives d) := by
  have hr : rawPlugins F p m.options = [] := by simp [rawPlugins, hnp]
  obtain ⟨src', k, xs, ds, out, w, -, h3, h4, -, h5⟩ := C70_reports F hinj ho hs hE hL src hp hd hon hoo order hreg h he
    (by simp [bookedPlugins, hnp])
  unfold ToBook at h3
  rw [if_pos hr] at h3
  subst h3
  refine ⟨k, out, w, h4, fun fs inv hi hfs cur => ?_⟩
  rw [(h5 fs).1] at hi
  exact C93_inventory (F.orders k) (hord k) _ h4 _ _ fs hfs hi cur

/-- A case: the ledger of C01 has two transactions, and one made from a pad. In units all are balanced; by weight the sale, in the
library there, is not, and the books are off by just as much. -/
example : (Ex.out.filter fun d => IsWritten Ex.ledger d).length = 2 ∧
    (Ex.out.filter fun d => d.variant matches .transaction _).length = 3 ∧
    amount (unitsIn Ex.nzd) Ex.out = 0 ∧ amount (unitsIn Ex.usd) Ex.out = 0 ∧
    amount (weightIn Ex.nzd) Ex.out = 32 ∧ amount (weightIn Ex.usd) Ex.out = -3 ∧
    amount (weightIn Ex.nzd) (Ex.out.filter fun d => IsWritten Ex.ledger d) = 32 := by
  decide +kernel

example : ∀ cur, amount (unitsIn cur) (Ex.out.filter fun _ => True) =
    amount (unitsIn cur) (Ex.out.filter fun d => True ∧ IsWritten Ex.ledger d) :=
  fun cur => (C93_written id Ex.fair_id _ Ex.ledger_ok cur fun _ => True).1

/-- The inventory until a day: there is one, it has accounts which hold something, and together they hold nothing. -/
example : ∃ inv, inventory ⟨Ex.out, Toy.options, registryBuild id Ex.out (optionsMap Toy.options)⟩ [dateLt (Toy.day 7)] = some inv ∧
    inv.keys = [Ex.bank, Ex.current, Ex.equity, Ex.food] ∧ grandTotal inv Ex.nzd = 0 := by
  have h : (inventory ⟨Ex.out, Toy.options, registryBuild id Ex.out (optionsMap Toy.options)⟩ [dateLt (Toy.day 7)]).map (·.keys) =
      some [Ex.bank, Ex.current, Ex.equity, Ex.food] := by decide +kernel
  obtain ⟨inv, h1, h2⟩ := Option.map_eq_some_iff.1 h
  refine ⟨inv, h1, h2, (C93_inventory id Ex.fair_id _ Ex.ledger_ok _ _ [dateLt (Toy.day 7)] ?_ h1 Ex.nzd).trans (by decide +kernel)⟩
  intro f hf x y hxy
  rw [List.mem_singleton] at hf
  simp [hf, dateLt, hxy]

end Limabean
