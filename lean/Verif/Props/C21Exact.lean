/-
C21: what exactly the report of a failed assertion says, for any currencies.
-/
import Verif.Props.C21

namespace Limabean

open Spec

/-- Units in another currency. -/
def otherCurrencies (ds : List Booked.Directive) (acc cur : Str) : ℚ := sumUnits (fun p => Below acc p.acc ∧ p.cur ≠ cur) ds

theorem sumUnits_split (ds : List Booked.Directive) (acc cur : Str) :
    sumUnits (fun p => Below acc p.acc) ds = rolledUp ds acc cur + otherCurrencies ds acc cur := by
  unfold rolledUp otherCurrencies sumUnits
  induction postings ds with
  | nil => simp
  | cons p l ih =>
    by_cases h : Below acc p.acc <;> by_cases hc : p.cur = cur <;> simp [h, hc] at ih ⊢ <;> rw [ih] <;> ring

/-- **C21**, for any currencies: in the report of a first assertion on an account, the error is what is missing to the asserted amount; the
total is of all units posted to the account and below it, of whatever currency. -/
theorem C21_exact_first (L : BookLib) (hL : L.Lawful) (order : AMap Str (Account L) → AMap Str (Account L))
    (hf : ∀ m, (order m).Perm m) (o : BookOptions) (ds : List Raw.Directive) (raw : Raw.Directive) (b : Raw.Balance)
    (hv : raw.variant = .balance b) (r r' : Run L) (h : Run.loop (envOf L o order) 0 ds {} = some r)
    (h0 : r.errors = []) (h' : Run.loop (envOf L o order) 0 (ds ++ [raw]) {} = some r')
    (rep : IndexedReport) (t m : Dec) (c : Str) (he : r'.errors = [rep]) (hr : rep.reason = .accumulated t m c)
    (hfirst : ∀ d ∈ r.booked, ∀ b', d.variant = .balance b' → b'.raw.acc ≠ b.acc) :
    t.val = sumUnits (fun p => Below b.acc p.acc) r.booked ∧ m.val = b.units.val - rolledUp r.booked b.acc b.cur ∧ c = b.cur := by
  have hfair : (envOf L o order).Fair := hf
  have hi := StInv.loop h
  have hs : r.step (envOf L o order) ds.length raw = some r' := by
    obtain ⟨r1, h1, h2⟩ := Run.loop_snoc.1 h'
    rw [h] at h1
    cases h1
    simpa using h2
  obtain ⟨a, ho, ha, hc, hp, hm, hccc, hst, hbk, ht⟩ := failed_balance hi hv hs (by rw [h0]; exact he) hr
  have hw := WindowInv.loop h _ _ ha
  have hwn : a.window = none := by
    cases hwn : a.window with
    | none => rfl
    | some w =>
      exfalso
      simp only [hwn] at hw
      obtain ⟨⟨d, h1, h2⟩, -⟩ := hw
      unfold isBalanceOn at h2
      cases hdv : d.variant with
      | balance b' =>
        simp only [hdv, decide_eq_true_eq] at h2
        exact hfirst d (List.mem_of_getElem? h1) b' hdv h2
      | _ => simp [hdv] at h2
  have hbase : reportBase b.cur ⟨0, r.booked.length⟩ r.booked = Dec.zero := by
    unfold reportBase
    split
    · rename_i i dt tg ln md bal hz
      exfalso
      exact first_not_balance h hz bal rfl
    · rfl
  have htot : t.val = sumUnits (fun p => Below b.acc p.acc) r.booked := by
    rw [ht, hwn]
    simp only [List.drop_zero, hbase, diagnose_val]
    simp
  refine ⟨htot, ?_, ?_⟩
  · rw [marginOf_some hfair hm, held_loop hL h h0]
    simp [rolledUp]
  · exact hccc

/-- **C21**, for any currencies: in the report of an assertion after an earlier one on the same account, the error is what is missing to the
asserted amount; the total starts from the amount which was asserted last, if in the same currency, and from nothing otherwise, and counts
all units posted since then, of whatever currency. -/
theorem C21_exact_next (L : BookLib) (hL : L.Lawful) (order : AMap Str (Account L) → AMap Str (Account L))
    (hf : ∀ m, (order m).Perm m) (o : BookOptions) (ds : List Raw.Directive) (raw : Raw.Directive) (b : Raw.Balance)
    (hv : raw.variant = .balance b) (r r' : Run L) (h : Run.loop (envOf L o order) 0 ds {} = some r)
    (h0 : r.errors = []) (h' : Run.loop (envOf L o order) 0 (ds ++ [raw]) {} = some r')
    (rep : IndexedReport) (t m : Dec) (c : Str) (he : r'.errors = [rep]) (hr : rep.reason = .accumulated t m c)
    (l l' : List Booked.Directive) (d : Booked.Directive) (b0 : Booked.Balance) (hl : r.booked = l ++ d :: l')
    (hd : d.variant = .balance b0) (hacc : b0.raw.acc = b.acc)
    (hlast : ∀ d ∈ l', ∀ b', d.variant = .balance b' → b'.raw.acc ≠ b.acc) :
    t.val = (if b0.raw.cur = b.cur then b0.raw.units.val else 0) + sumUnits (fun p => Below b.acc p.acc) l' ∧
      m.val = b.units.val - rolledUp r.booked b.acc b.cur ∧ c = b.cur := by
  have hfair : (envOf L o order).Fair := hf
  have hi := StInv.loop h
  have hs : r.step (envOf L o order) ds.length raw = some r' := by
    obtain ⟨r1, h1, h2⟩ := Run.loop_snoc.1 h'
    rw [h] at h1
    cases h1
    simpa using h2
  obtain ⟨a, ho, ha, hc, hp, hm, hccc, hst, hbk, ht⟩ := failed_balance hi hv hs (by rw [h0]; exact he) hr
  have hw := WindowInv.loop h _ _ ha
  have hdb : isBalanceOn b.acc d = true := by simp [isBalanceOn, hd, hacc]
  have hwn : ∃ w, a.window = some w ∧ w.stop = l.length := by
    cases hwn : a.window with
    | none =>
      exfalso
      simp only [hwn] at hw
      have := hw d (by rw [hl]; simp)
      rw [hdb] at this
      cases this
    | some w =>
      refine ⟨w, rfl, ?_⟩
      simp only [hwn] at hw
      obtain ⟨⟨d1, h1, h2⟩, h3⟩ := hw
      rcases lt_trichotomy w.stop l.length with hlt | heq | hgt
      · have := h3 l.length d hlt (by rw [hl]; simp)
        rw [hdb] at this
        cases this
      · exact heq
      · exfalso
        rw [hl, List.getElem?_append_right (by omega)] at h1
        have hk : ∃ k, w.stop - l.length = k + 1 := ⟨w.stop - l.length - 1, by omega⟩
        obtain ⟨k, hk⟩ := hk
        rw [hk, List.getElem?_cons_succ] at h1
        unfold isBalanceOn at h2
        cases hdv : d1.variant with
        | balance b' =>
          simp only [hdv, decide_eq_true_eq] at h2
          exact hlast d1 (List.mem_of_getElem? h1) b' hdv h2
        | _ => simp [hdv] at h2
  obtain ⟨w, hwn, hstop⟩ := hwn
  have hbase : reportBase b.cur ⟨l.length, r.booked.length⟩ r.booked = if b0.raw.cur = b.cur then b0.raw.units else Dec.zero := by
    obtain ⟨_, _, _, _, _, v⟩ := d
    simp only at hd
    subst hd
    simp [reportBase, hl]
  have htot : t.val = (if b0.raw.cur = b.cur then b0.raw.units.val else 0) + sumUnits (fun p => Below b.acc p.acc) l' := by
    rw [ht, hwn]
    simp only [hstop, hbase, diagnose_val]
    have hdrop : r.booked.drop l.length = d :: l' := by rw [hl]; simp
    rw [hdrop, sumUnits_cons]
    have : postingsOf d = [] := by simp [postingsOf, hd]
    rw [this, sumP_nil, zero_add]
    split <;> simp
  refine ⟨htot, ?_, ?_⟩
  · rw [marginOf_some hfair hm, held_loop hL h h0]
    simp [rolledUp]
  · exact hccc

/-- So the total and the error make the asserted amount exactly if the units in other currencies add up to nothing. -/
theorem C21_adds_up (L : BookLib) (hL : L.Lawful) (order : AMap Str (Account L) → AMap Str (Account L))
    (hf : ∀ m, (order m).Perm m) (o : BookOptions) (ds : List Raw.Directive) (raw : Raw.Directive) (b : Raw.Balance)
    (hv : raw.variant = .balance b) (r r' : Run L) (h : Run.loop (envOf L o order) 0 ds {} = some r)
    (h0 : r.errors = []) (h' : Run.loop (envOf L o order) 0 (ds ++ [raw]) {} = some r')
    (rep : IndexedReport) (t m : Dec) (c : Str) (he : r'.errors = [rep]) (hr : rep.reason = .accumulated t m c)
    (hfirst : ∀ d ∈ r.booked, ∀ b', d.variant = .balance b' → b'.raw.acc ≠ b.acc) :
    t.val + m.val = b.units.val ↔ otherCurrencies r.booked b.acc b.cur = 0 := by
  obtain ⟨h1, h2, -⟩ := C21_exact_first L hL order hf o ds raw b hv r r' h h0 h' rep t m c he hr hfirst
  rw [h1, h2, sumUnits_split _ _ b.cur]
  constructor <;> intro h <;> linarith

/-- A case of `C21_exact_first` with two currencies: 5 NZD and 3 USD are held, 10 NZD asserted. The total is 8, the error 5. -/
example : reportNumbers (Toy.run [Toy.mkOpen 1 Ex.bank, Toy.mkOpen 1 Ex.food,
    Toy.mkTxn 2 [(Ex.bank, ⟨5, 0⟩, Ex.nzd), (Ex.food, ⟨-5, 0⟩, Ex.nzd)],
    Toy.mkTxn 2 [(Ex.bank, ⟨3, 0⟩, Ex.usd), (Ex.food, ⟨-3, 0⟩, Ex.usd)],
    Toy.mkBal 3 Ex.bank ⟨10, 0⟩ Ex.nzd]) = [(⟨8, 0⟩, ⟨5, 0⟩)] := by decide +kernel

/-- A case of `C21_exact_next`: 5.01 NZD are held, 5 asserted within tolerance; then 3 USD come in, and 10 NZD are asserted. The total
is 8, the error 4.99. -/
example : reportNumbers (Toy.run [Toy.mkOpen 1 Ex.bank, Toy.mkOpen 1 Ex.food,
    Toy.mkTxn 2 [(Ex.bank, ⟨501, 2⟩, Ex.nzd), (Ex.food, ⟨-501, 2⟩, Ex.nzd)],
    Toy.mkBal 3 Ex.bank ⟨500, 2⟩ Ex.nzd,
    Toy.mkTxn 3 [(Ex.bank, ⟨3, 0⟩, Ex.usd), (Ex.food, ⟨-3, 0⟩, Ex.usd)],
    Toy.mkBal 4 Ex.bank ⟨1000, 2⟩ Ex.nzd]) = [(⟨800, 2⟩, ⟨499, 2⟩)] := by decide +kernel

end Limabean
