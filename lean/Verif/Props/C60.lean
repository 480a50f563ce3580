/-
C60: reports agree with the booking which produced the ledger.

The units of the inventory are those which booking holds at the end. An inventory of what is dated before a balance
assertion shows the asserted amount. But not every accepted ledger has an inventory: `C60_no_inventory`.
-/
import Verif.Props.C01
import Verif.Props.C06
import Verif.Props.C18
import Verif.Props.C33
import Verif.Props.C34
import Verif.Props.C36
import Verif.Props.C38
import Verif.Props.C55

namespace Limabean

open Spec Clj

namespace Spec

/-- A directive of the input which has postings or gets some. -/
def Moves (d : Raw.Directive) : Prop := (∃ t, d.variant = .transaction t) ∨ ∃ p, d.variant = .pad p

/-- A directive stands at the start of its day, as far as transactions and pads are concerned: those before it are dated
earlier, those after it are not. -/
def AtStartOfDay (before : List Raw.Directive) (d : Raw.Directive) (after : List Raw.Directive) : Prop :=
  (∀ x ∈ before, Moves x → DateLt x.date d.date) ∧ ∀ x ∈ after, Moves x → ¬ DateLt x.date d.date

end Spec

theorem totalUnits_posted (ds : List Booked.Directive) (sel : Booked.Posting → Prop) [DecidablePred sel] :
    totalUnits (fun x => x.posting.units) (allPosted ds) (fun x => sel x.posting) = sumUnits (fun p => sel p) ds := by
  unfold totalUnits sumUnits
  have e : postings ds = (allPosted ds).map (·.posting) := by
    unfold postings allPosted
    rw [List.map_flatMap]
    congr 1
    funext d
    unfold postingsOf
    cases d.variant <;> simp [Function.comp_def]
  rw [e, List.filter_map, List.map_map]
  rfl

/-- C60: the units of the inventory are, in each account and currency, those held by booking at the end. -/
theorem C60_holdings (L : BookLib) (hL : L.Lawful) (order : AMap Str (Account L) → AMap Str (Account L))
    (o : BookOptions) (ds : List Raw.Directive) (out : List Booked.Directive) (w : List IndexedReport)
    (h : book L order o ds = .success out w) (lo : LedgerOptions) (reg : Registry) (inv : AMap Str (List Position))
    (hi : inventory ⟨out, lo, reg⟩ [] = some inv) :
    ∃ r, Run.loop (envOf L o order) 0 ds {} = some r ∧ r.booked = out ∧
      ∀ acc cur, totalUnits Position.units ((inv.get acc).getD []) (fun p => p.cur = cur) =
        (L.units ((r.st.inventory acc).getD L.empty) cur).val := by
  obtain ⟨r, h1, h2, h3⟩ := C18_holdings L hL order o ds out w h
  refine ⟨r, h1, h2, fun acc cur => ?_⟩
  rw [h3, C34_inventory _ _ _ hi, posted, ← totalUnits_posted]
  congr 1
  unfold selection
  rw [List.filter_eq_self]
  intro x _
  simp [Selected]

/-! ### Assertions in reports -/

theorem sum_by_account (K : Finset Str) (l : List Posted) (P : Str → Prop) [DecidablePred P] (cur : Str)
    (h : ∀ x ∈ l, x.posting.acc ∈ K) :
    (K.sum fun a => if P a then totalUnits (fun x : Posted => x.posting.units) l
      (fun x => x.posting.acc = a ∧ x.posting.cur = cur) else 0) =
    totalUnits (fun x : Posted => x.posting.units) l (fun x => P x.posting.acc ∧ x.posting.cur = cur) := by
  induction l with
  | nil => simp [totalUnits]
  | cons x l ih =>
    have hc : ∀ (Q : Posted → Prop) [DecidablePred Q], totalUnits (fun x : Posted => x.posting.units) (x :: l) Q =
        (if Q x then x.posting.units.val else 0) + totalUnits (fun x : Posted => x.posting.units) l Q := by
      intro Q _
      unfold totalUnits
      by_cases hq : Q x <;> simp [hq]
    rw [hc, ← ih fun y hy => h y (by simp [hy])]
    have : ∀ a ∈ K, (if P a then totalUnits (fun x : Posted => x.posting.units) (x :: l)
        (fun x => x.posting.acc = a ∧ x.posting.cur = cur) else 0) =
        (if x.posting.acc = a then (if P x.posting.acc ∧ x.posting.cur = cur then x.posting.units.val else 0) else 0) +
        (if P a then totalUnits (fun x : Posted => x.posting.units) l
          (fun x => x.posting.acc = a ∧ x.posting.cur = cur) else 0) := by
      intro a _
      rw [hc]
      by_cases hp : P a <;> by_cases ha : x.posting.acc = a <;> simp [hp, ha]
    rw [Finset.sum_congr rfl this, Finset.sum_add_distrib, Finset.sum_ite_eq, if_pos (h x (by simp))]

/-- The units of an inventory at or below an account are those of the selected postings at or below it. -/
theorem subtotal_inventory (b : Beans) (fs : List Filter) (inv : AMap Str (List Position)) (h : inventory b fs = some inv)
    (acc cur : Str) : subtotal inv cur acc = totalUnits (fun x => x.posting.units) (selection b.directives fs)
      (fun x => Below acc x.posting.acc ∧ x.posting.cur = cur) := by
  have hw : inv.WF := sorted_WF (C30_canonical _ _ inv h).1
  set l := selection b.directives fs with hl
  let K : Finset Str := inv.keys.toFinset ∪ (l.map fun x => x.posting.acc).toFinset
  rw [← sum_by_account K l (fun a => Below acc a) cur (by
    intro x hx
    simp only [K, Finset.mem_union, List.mem_toFinset, List.mem_map]
    exact Or.inr ⟨x, hx, rfl⟩)]
  have e : ∀ a ∈ K, (if Below acc a then totalUnits (fun x : Posted => x.posting.units) l
      (fun x => x.posting.acc = a ∧ x.posting.cur = cur) else 0) =
      if Below acc a then ownUnits inv cur a else 0 := by
    intro a _
    rw [ownUnits, C34_inventory b fs inv h]
  rw [Finset.sum_congr rfl e]
  have e2 : (K.sum fun a => if Below acc a then ownUnits inv cur a else 0) =
      inv.keys.toFinset.sum fun a => if Below acc a then ownUnits inv cur a else 0 := by
    refine (Finset.sum_subset Finset.subset_union_left ?_).symm
    intro a _ ha
    have : inv.get a = none := (AMap.get_eq_none_iff inv a).2 (by simpa using ha)
    simp [ownUnits, this, totalUnits]
  rw [e2, List.sum_toFinset _ hw]
  unfold subtotal AMap.keys
  rw [List.map_map]
  have key : ∀ m : AMap Str (List Position), (∀ x ∈ m, x ∈ inv) →
      ((m.filter fun x => Below acc x.1).map fun x => totalUnits Position.units x.2 (fun p => p.cur = cur)).sum =
      (m.map ((fun a => if Below acc a then ownUnits inv cur a else 0) ∘ Prod.fst)).sum := by
    intro m hm
    induction m with
    | nil => rfl
    | cons x m ih =>
      have hx : ownUnits inv cur x.1 = totalUnits Position.units x.2 (fun p => p.cur = cur) := by
        rw [ownUnits, AMap.get_of_mem hw (k := x.1) (v := x.2) (hm x (by simp))]
        rfl
      rw [List.map_cons, List.sum_cons, ← ih fun y hy => hm y (by simp [hy])]
      by_cases hb : Below acc x.1 <;> simp [hb, hx]
  exact key inv fun _ h => h

theorem Image.split {n : Nat} {ds : List Raw.Directive} {out : List Booked.Directive} (h : Image n ds out) :
    ∀ {pre d post b}, out = pre ++ d :: post → d.variant = .balance b →
      ∃ l raw m k, ds = l ++ raw :: m ∧ raw.variant = .balance b.raw ∧ raw.date = d.date ∧ d.idx = n + l.length ∧
        Image n l pre ∧ Image k m post := by
  induction h with
  | nil n => intro pre d post b e; simp at e
  | @single n raw b0 rs bs hp he hc hr ih =>
    intro pre d post b e hv
    cases pre with
    | nil =>
      simp only [List.nil_append, List.cons.injEq] at e
      obtain ⟨rfl, rfl⟩ := e
      refine ⟨[], raw, rs, n + 1, rfl, ?_, he.date.symm, he.idx, .nil n, hr⟩
      rw [hv] at hc
      generalize raw.variant = v at hc
      cases hc
      rfl
    | cons y pre =>
      simp only [List.cons_append, List.cons.injEq] at e
      obtain ⟨rfl, e⟩ := e
      obtain ⟨l, raw', m, k, rfl, h2, h3, h4, h5, h6⟩ := ih e hv
      exact ⟨raw :: l, raw', m, k, rfl, h2, h3, by simp; omega, .single hp he hc h5, h6⟩
  | @padded n raw b0 b' rs bs hp he hc he' ht hr ih =>
    intro pre d post b e hv
    cases pre with
    | nil =>
      simp only [List.nil_append, List.cons.injEq] at e
      obtain ⟨rfl, rfl⟩ := e
      rw [hv] at hc
      unfold isPad at hp
      revert hp
      generalize raw.variant = v at hc
      cases hc
      simp
    | cons y pre =>
      simp only [List.cons_append, List.cons.injEq] at e
      obtain ⟨rfl, e⟩ := e
      cases pre with
      | nil =>
        simp only [List.nil_append, List.cons.injEq] at e
        obtain ⟨rfl, rfl⟩ := e
        obtain ⟨t, ht, -⟩ := ht
        rw [hv] at ht
        cases ht
      | cons y' pre =>
        simp only [List.cons_append, List.cons.injEq] at e
        obtain ⟨rfl, e⟩ := e
        obtain ⟨l, raw', m, k, rfl, h2, h3, h4, h5, h6⟩ := ih e hv
        exact ⟨raw :: l, raw', m, k, rfl, h2, h3, by simp; omega, .padded hp he hc he' ht h5, h6⟩

theorem Image.posted {n : Nat} {ds : List Raw.Directive} {out : List Booked.Directive} (h : Image n ds out) :
    ∀ x ∈ allPosted out, ∃ r ∈ ds, Moves r ∧ r.date = x.date := by
  induction h with
  | nil n => intro x hx; simp [allPosted] at hx
  | @single n raw b0 rs bs hp he hc hr ih =>
    intro x hx
    rw [allPosted, List.flatMap_cons, List.mem_append] at hx
    rcases hx with hx | hx
    · refine ⟨raw, by simp, ?_⟩
      cases hv : b0.variant <;> rw [hv] at hx hc <;> simp at hx
      rename_i t
      obtain ⟨p, -, rfl⟩ := hx
      refine ⟨Or.inl ?_, he.date.symm⟩
      generalize raw.variant = v at hc
      cases hc
      exact ⟨_, rfl⟩
    · obtain ⟨r, h1, h2⟩ := ih x hx
      exact ⟨r, by simp [h1], h2⟩
  | @padded n raw b0 b' rs bs hp he hc he' ht hr ih =>
    intro x hx
    rw [allPosted, List.flatMap_cons, List.flatMap_cons, List.mem_append, List.mem_append] at hx
    have hm : Moves raw := by
      unfold isPad at hp
      refine Or.inr ?_
      cases hv : raw.variant <;> rw [hv] at hp <;> simp at hp
      exact ⟨_, rfl⟩
    rcases hx with hx | hx | hx
    · refine ⟨raw, by simp, hm, ?_⟩
      cases hv : b0.variant <;> rw [hv] at hx <;> simp at hx
      obtain ⟨p, -, rfl⟩ := hx
      exact he.date.symm
    · refine ⟨raw, by simp, hm, ?_⟩
      obtain ⟨t, ht, -⟩ := ht
      rw [ht] at hx
      simp only [List.mem_map] at hx
      obtain ⟨p, -, rfl⟩ := hx
      exact he'.date.symm
    · obtain ⟨r, h1, h2⟩ := ih x hx
      exact ⟨r, by simp [h1], h2⟩

/-- What is dated before an assertion at the start of its day is what stands before it. -/
theorem before_eq {ds : List Raw.Directive} {out pre post : List Booked.Directive} {d : Booked.Directive} {b : Booked.Balance}
    (h : Image 0 ds out) (hout : out = pre ++ d :: post) (hv : d.variant = .balance b)
    (hs : ∀ l raw m, ds = l ++ raw :: m → l.length = d.idx → AtStartOfDay l raw m) :
    ∀ fs : List Filter, (∀ x ∈ allPosted out, x.posting.cur = b.raw.cur → (Selected fs x ↔ DateLt x.date d.date)) →
    totalUnits (fun x => x.posting.units) (selection out fs)
      (fun x => Below b.raw.acc x.posting.acc ∧ x.posting.cur = b.raw.cur) = rolledUp pre b.raw.acc b.raw.cur := by
  intro fs hfs
  obtain ⟨l, raw, m, k, rfl, h2, h3, h4, h5, h6⟩ := Image.split h hout hv
  obtain ⟨s1, s2⟩ := hs l raw m rfl (by omega)
  have e : allPosted out = allPosted pre ++ allPosted post := by
    subst hout
    simp [allPosted, hv]
  rw [rolledUp, ← totalUnits_posted]
  unfold totalUnits
  congr 2
  unfold selection
  rw [List.filter_filter, e, List.filter_append]
  have e1 : (allPosted post).filter (fun x => decide (Below b.raw.acc x.posting.acc ∧ x.posting.cur = b.raw.cur) &&
      decide (Selected fs x)) = [] := by
    rw [List.filter_eq_nil_iff]
    intro x hx
    simp only [Bool.and_eq_true, decide_eq_true_eq, not_and]
    rintro ⟨-, hc⟩ hsel
    obtain ⟨r, hr, hm, hd⟩ := Image.posted h6 x hx
    have := (hfs x (by rw [e]; simp [hx]) hc).1 hsel
    rw [← hd, ← h3] at this
    exact s2 r hr hm this
  rw [e1, List.append_nil]
  refine List.filter_congr fun x hx => ?_
  rw [Bool.eq_iff_iff]
  simp only [Bool.and_eq_true, decide_eq_true_eq, and_iff_left_iff_imp]
  rintro ⟨-, hc⟩
  obtain ⟨r, hr, hm, hd⟩ := Image.posted h5 x hx
  refine (hfs x (by rw [e]; simp [hx]) hc).2 ?_
  rw [← hd, ← h3]
  exact s1 r hr hm

/-- C60, for assertions at the start of their day: the inventory of what is dated before holds the asserted amount in the account
and those below it, within the tolerance. Also when it is restricted to the currency. What is missing: pads which interfere,
and negative tolerances, for which C06 fails. -/
theorem C60_assertion_partial (L : BookLib) (hL : L.Lawful)
    (order : AMap Str (Account L) → AMap Str (Account L)) (hf : ∀ m, (order m).Perm m) (o : BookOptions)
    (ds : List Raw.Directive) (out : List Booked.Directive) (w : List IndexedReport)
    (h : book L order o ds = .success out w) (d : Booked.Directive) (hd : d ∈ out) (b : Booked.Balance)
    (hv : d.variant = .balance b)
    (hs : ∀ l raw m, ds = l ++ raw :: m → l.length = d.idx → AtStartOfDay l raw m)
    (hclear : PadsClear (ds.take d.idx) b.raw) (ht : 0 ≤ tolerance o.tolerance.multiplier b.raw)
    (lo : LedgerOptions) (reg : Registry) (fs : List Filter) (hfs : fs = [dateLt d.date] ∨ fs = [curIs b.raw.cur, dateLt d.date])
    (inv : AMap Str (List Position)) (hi : inventory ⟨out, lo, reg⟩ fs = some inv) :
    |b.raw.units.val - subtotal inv b.raw.cur b.raw.acc| ≤ tolerance o.tolerance.multiplier b.raw := by
  obtain ⟨pre, post, hout⟩ := List.append_of_mem hd
  have hc := C06_assertions_hold_partial L hL order hf o ds out w h pre d post b hout hv hclear
  have himg := C01_image L order o ds out w h
  rw [subtotal_inventory _ _ _ hi, before_eq himg hout hv hs fs]
  · rcases hc with hc | hc
    · exact hc
    · rw [hc]; simpa using ht
  · intro x _ hx
    have := (C33_meaning d.date d.date x.seen).1
    have hcur := ((C32_fields x.seen).2.1 b.raw.cur)
    rcases hfs with rfl | rfl
    · simp only [Selected, List.mem_singleton, forall_eq, this]
      simp [Posted.seen]
    · simp only [Selected, List.mem_cons, List.not_mem_nil, or_false, forall_eq_or_imp, forall_eq, this, hcur]
      simp [Posted.seen, hx]

/-- C60, restricted likewise: so a rollup of what is dated before, by the currency of the assertion, shows the asserted amount
at the account, within the tolerance; or does not show the account, and the asserted amount is zero within the tolerance. -/
theorem C60_rollup_partial (L : BookLib) (hL : L.Lawful)
    (order : AMap Str (Account L) → AMap Str (Account L)) (hf : ∀ m, (order m).Perm m) (o : BookOptions)
    (ds : List Raw.Directive) (out : List Booked.Directive) (w : List IndexedReport)
    (h : book L order o ds = .success out w) (d : Booked.Directive) (hd : d ∈ out) (b : Booked.Balance)
    (hv : d.variant = .balance b)
    (hs : ∀ l raw m, ds = l ++ raw :: m → l.length = d.idx → AtStartOfDay l raw m)
    (hclear : PadsClear (ds.take d.idx) b.raw) (ht : 0 ≤ tolerance o.tolerance.multiplier b.raw)
    (lo : LedgerOptions) (reg : Registry)
    (inv : AMap Str (List Position)) (hi : inventory ⟨out, lo, reg⟩ [curIs b.raw.cur, dateLt d.date] = some inv)
    (hw : ∀ acc ∈ inv.keys, WellNamed acc)
    (freqOrder : AMap Str Nat → AMap Str Nat) (hfo : ∀ m, (freqOrder m).Perm m) (ro : AMap Str RollupEntry)
    (hr : rollup freqOrder inv = some ro) :
    (∀ e, ro.get b.raw.acc = some e → |b.raw.units.val - shown e| ≤ tolerance o.tolerance.multiplier b.raw) ∧
    (ro.get b.raw.acc = none → |b.raw.units.val| ≤ tolerance o.tolerance.multiplier b.raw) := by
  have key := C60_assertion_partial L hL order hf o ds out w h d hd b hv hs hclear ht lo reg _ (Or.inr rfl) inv hi
  have hwf : inv.WF := sorted_WF (C30_canonical _ _ inv hi).1
  by_cases hn : inv = []
  · subst hn
    have e : freqOrder (curFreq []) = [] := List.perm_nil.1 (hfo [])
    rw [rollup, e] at hr
    cases hr
  · rw [C55_filtered freqOrder hfo _ _ _ inv hi hn, Option.some.injEq] at hr
    subst hr
    constructor
    · intro e he
      rw [shown_eq hwf hw he]
      exact key
    · intro hnone
      have : subtotal inv b.raw.cur b.raw.acc = 0 := by
        have hno := mt (C36_shown inv b.raw.cur hwf hw b.raw.acc).2 (by rw [AMap.mem_keys_iff, hnone]; simp)
        push Not at hno
        unfold subtotal
        refine List.sum_eq_zero fun y hy => ?_
        simp only [List.mem_map, List.mem_filter, decide_eq_true_eq] at hy
        obtain ⟨x, ⟨hx, hb⟩, rfl⟩ := hy
        by_contra hne
        refine hno x.1 ?_ hb
        rw [ownUnits, AMap.get_of_mem hwf (k := x.1) (v := x.2) hx]
        exact hne
      rw [this] at key
      simpa using key

/-- A case: the assertion of the 7th in the example ledger, which has a transaction on the 6th; its reports. -/
example : AtStartOfDay (Ex.ledger.take 9) (Toy.mkBal 7 Ex.bank ⟨8750, 2⟩ Ex.nzd) (Ex.ledger.drop 10) ∧
    inventory ⟨Ex.out, Toy.options, { defaultBooking := .strict, accs := [], curs := [] }⟩ [curIs Ex.nzd, dateLt (Toy.day 7)] =
      some [(Ex.bank, [⟨⟨10000, 2⟩, Ex.nzd, none⟩]), (Ex.current, [⟨⟨-1250, 2⟩, Ex.nzd, none⟩]),
        (Ex.equity, [⟨⟨-10000, 2⟩, Ex.nzd, none⟩]), (Ex.food, [⟨⟨1250, 2⟩, Ex.nzd, none⟩])] := by
  refine ⟨⟨?_, ?_⟩, by decide +kernel⟩
  · have : ∀ x ∈ Ex.ledger.take 9, DateLt x.date (Toy.day 7) := by decide +kernel
    exact fun x hx _ => this x hx
  · have : ∀ x ∈ Ex.ledger.drop 10, ¬ DateLt x.date (Toy.day 7) := by decide +kernel
    exact fun x hx _ => this x hx

/-! ### When there is an inventory -/

/-- C60: an accepted ledger has an inventory, for some filters, exactly when no selected posting is on an account which was
opened with the method AVERAGE. -/
theorem C60_inventory (L : BookLib) (order : AMap Str (Account L) → AMap Str (Account L))
    (o : BookOptions) (ds : List Raw.Directive) (out : List Booked.Directive) (w : List IndexedReport)
    (h : book L order o ds = .success out w) (lo : LedgerOptions) (hn : OptionsNamed lo)
    (order' : AMap Str Nat → AMap Str Nat) (fs : List Filter) :
    (∃ inv, inventory ⟨out, lo, registryBuild order' out (optionsMap lo)⟩ fs = some inv) ↔
      ∀ x ∈ selection out fs, ∀ op, (life ds x.posting.acc = .opn op ∨ life ds x.posting.acc = .closed op) →
        op.booking ≠ some .average := by
  obtain ⟨r, hl, he, -, rfl, -⟩ := collect_success h
  unfold inventory
  rw [C29_defined, reportRows_eq, List.map_map]
  simp only [List.mem_map, Function.comp, forall_exists_index, and_imp, forall_apply_eq_imp_iff₂]
  refine forall₂_congr fun x _ => ?_
  unfold Registry.accBooking registryBuild
  dsimp only
  rw [registryAccs_get, openings_accepted _ ds r hl he, registryDefault_strict hn]
  cases hlife : life ds x.posting.acc with
  | never => simp
  | opn op => cases hb : op.booking <;> simp [hb]
  | closed op => cases hb : op.booking <;> simp [hb]

/-- An account which is opened with the method AVERAGE, and a transaction. -/
def Ex.averaged : List Raw.Directive :=
  [Toy.mkOpen 1 Ex.bank none (some .average), Toy.mkOpen 1 Ex.food,
    Toy.mkTxn 2 [(Ex.bank, ⟨-5, 0⟩, Ex.nzd), (Ex.food, ⟨5, 0⟩, Ex.nzd)]]

/-- C60 fails: this ledger is accepted, but has no inventory. The front end fails on the method which booking replaced by the
default. -/
theorem C60_no_inventory : ∃ out w, book Toy.lib id {} Ex.averaged = .success out w ∧
    ∀ (lo : LedgerOptions) (order : AMap Str Nat → AMap Str Nat), OptionsNamed lo →
      ∀ inv, inventory ⟨out, lo, registryBuild order out (optionsMap lo)⟩ [] ≠ some inv := by
  obtain ⟨out, w, h⟩ : ∃ out w, book Toy.lib id {} Ex.averaged = .success out w := by
    have : (match book Toy.lib id {} Ex.averaged with | .success _ _ => true | _ => false) = true := by decide +kernel
    revert this
    cases book Toy.lib id {} Ex.averaged <;> simp
  refine ⟨out, w, h, fun lo order hn inv hi => ?_⟩
  have h1 := (C60_inventory Toy.lib id {} Ex.averaged out w h lo hn order []).1 ⟨inv, hi⟩
  have h2 : (match book Toy.lib id {} Ex.averaged with
    | .success out _ => (selection out []).any fun x => x.posting.acc = Ex.bank
    | _ => false) = true := by decide +kernel
  rw [h] at h2
  simp only [List.any_eq_true, decide_eq_true_eq] at h2
  obtain ⟨x, hx, ha⟩ := h2
  refine h1 x hx { acc := Ex.bank, currencies := none, booking := some .average } ?_ rfl
  rw [ha]
  exact Or.inl (by decide +kernel)

/-- The ledger of the examples has one. -/
example : ∃ inv, inventory ⟨Ex.out, Toy.options, registryBuild id Ex.out (optionsMap Toy.options)⟩ [] = some inv := by
  refine (C60_inventory Toy.lib id {} Ex.ledger Ex.out [] Ex.ledger_ok Toy.options ?_ id []).2 fun x hx op ho => ?_
  · intro x hx
    simp [Toy.options] at hx
  · have : ∀ x ∈ selection Ex.out [], (match life Ex.ledger x.posting.acc with
      | .opn op | .closed op => op.booking
      | .never => none) ≠ some .average := by decide +kernel
    have := this x hx
    rcases ho with ho | ho <;> simpa [ho] using this

end Limabean
