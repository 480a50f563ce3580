/-
C03: a balance assertion is decided by the tolerance.
-/
import Verif.Proofs.BalanceStep
import Verif.Props.Examples

namespace Limabean

open Spec

/-- C03: after an accepted ledger, an assertion on an open account in a permitted currency is accepted iff the asserted
amount differs from the total of the returned postings, over the account and those below, by no more than the tolerance
(boundary included). If not, booking fails with one report, which states the difference. -/
theorem C03_decided (L : BookLib) (hL : L.Lawful) (order : AMap Str (Account L) → AMap Str (Account L))
    (hf : ∀ m, (order m).Perm m) (o : BookOptions) (ds : List Raw.Directive) (out : List Booked.Directive)
    (w : List IndexedReport) (h : book L order o ds = .success out w) (raw : Raw.Directive) (b : Raw.Balance)
    (hv : raw.variant = .balance b) (hopen : IsOpen ds b.acc) (hperm : Permits ds b.acc b.cur) :
    (|b.units.val - rolledUp out b.acc b.cur| ≤ tolerance o.tolerance.multiplier b →
      ∃ d, book L order o (ds ++ [raw]) = .success (out ++ [d]) w ∧ d.variant = .balance { raw := b }) ∧
    (tolerance o.tolerance.multiplier b < |b.units.val - rolledUp out b.acc b.cur| →
      ∃ rep total margin, book L order o (ds ++ [raw]) = .failure [rep] ∧ rep.idx = { directive := ds.length } ∧
        rep.reason = .accumulated total margin b.cur ∧ margin.val = b.units.val - rolledUp out b.acc b.cur) := by
  have hfair : (envOf L o order).Fair := hf
  obtain ⟨r, hl, he, hp, rfl, rfl⟩ := collect_success h
  have hi := StInv.loop hl
  obtain ⟨a, hop, ha, hc⟩ := (LifeInv.loop hl).usable hopen hperm
  have hheld : r.st.held (fun x => Below b.acc x) b.cur = rolledUp r.booked b.acc b.cur := by
    rw [held_loop hL hl he]; simp [rolledUp]
  rw [leftOverPads_nil hfair] at hp
  have hpad : a.pad = none := hp (b.acc, a) (AMap.mem_of_get ha)
  obtain ⟨h1, h2, -⟩ := balance_step (env := envOf L o order) hi hv hop ha hc
  have hloop : ∀ r', r.step (envOf L o order) ds.length raw = some r' →
      Run.loop (envOf L o order) 0 (ds ++ [raw]) {} = some r' := by
    intro r' hr'
    rw [Run.loop_snoc]
    exact ⟨r, hl, by simpa using hr'⟩
  constructor
  · intro hle
    have hm := (marginOf_none_iff (env := envOf L o order) hfair (st := r.st) (b := b)).2 (by rw [hheld]; exact hle)
    have hs := hloop _ (h1 hm)
    refine ⟨mkBooked ds.length raw (.balance { raw := b, unusedPad := a.pad.map fun p => p.2 }), ?_, ?_⟩
    · unfold book collect
      rw [hs]
      have hnil : (r.st.setAccount b.acc (a.advance r.booked.length)).leftOverPads (envOf L o order) = [] := by
        rw [leftOverPads_nil hfair]
        intro ka hka
        rcases AMap.mem_set hka with h | h
        · rw [h]; rfl
        · exact hp ka h
      simp only [Run.validate, he, hpad, hnil, Option.map_none, Option.toList_none, List.append_nil, List.isEmpty_nil,
        if_true]
      rfl
    · simp [mkBooked, hpad]
  · intro hgt
    cases hm : r.st.marginOf (envOf L o order) b with
    | none =>
      rw [marginOf_none_iff hfair, hheld] at hm
      exact absurd hm (not_le.2 hgt)
    | some m =>
      obtain ⟨rep, t, hr1, hr2, -, -, hr3⟩ := h2 m hm hpad
      have hs := hloop _ hr3
      refine ⟨rep, t, m, ?_, hr2, hr1, ?_⟩
      · unfold book collect
        rw [hs]
        have hnil : (r.st.resetTo b a m r.booked.length).leftOverPads (envOf L o order) = [] := by
          rw [leftOverPads_nil hfair]
          intro ka hka
          rcases AMap.mem_set hka with h | h
          · rw [h]; rfl
          · exact hp ka h
        simp [Run.validate, he, hnil]
      · rw [marginOf_some hfair hm, hheld]

/-- C03 in any reachable state, also after errors and with pads pending on other accounts: no report is added iff the
asserted amount is within tolerance of what the accounts hold. -/
theorem C03_any_history (L : BookLib) (order : AMap Str (Account L) → AMap Str (Account L))
    (hf : ∀ m, (order m).Perm m) (o : BookOptions) (ds : List Raw.Directive) (r : Run L)
    (h : Run.loop (envOf L o order) 0 ds {} = some r) (raw : Raw.Directive) (b : Raw.Balance)
    (hv : raw.variant = .balance b) (hopen : IsOpen ds b.acc) (hperm : Permits ds b.acc b.cur)
    (hpad : ∀ a, r.st.accounts.get b.acc = some a → a.pad = none) :
    ∃ r', Run.loop (envOf L o order) 0 (ds ++ [raw]) {} = some r' ∧
      (r'.errors = r.errors ↔
        |b.units.val - ((r.st.accounts.filter fun ca => Below b.acc ca.1).map
          fun ca => (L.units ca.2.positions b.cur).val).sum| ≤ tolerance o.tolerance.multiplier b) ∧
      (r'.errors ≠ r.errors → ∃ rep total margin, r'.errors = r.errors ++ [rep] ∧
        rep.reason = .accumulated total margin b.cur ∧
        margin.val = b.units.val - ((r.st.accounts.filter fun ca => Below b.acc ca.1).map
          fun ca => (L.units ca.2.positions b.cur).val).sum) := by
  have hfair : (envOf L o order).Fair := hf
  have hi := StInv.loop h
  obtain ⟨a, hop, ha, hc⟩ := (LifeInv.loop h).usable hopen hperm
  have hpad := hpad a ha
  have hheld : ((r.st.accounts.filter fun ca => Below b.acc ca.1).map fun ca => (L.units ca.2.positions b.cur).val).sum =
      r.st.held (fun x => Below b.acc x) b.cur := 
    (State.held_eq_filter r.st (fun x => Below b.acc x) b.cur).symm
  rw [hheld]
  obtain ⟨h1, h2, -⟩ := balance_step (env := envOf L o order) hi hv hop ha hc
  have hloop : ∀ r', r.step (envOf L o order) ds.length raw = some r' →
      Run.loop (envOf L o order) 0 (ds ++ [raw]) {} = some r' := by
    intro r' hr'
    rw [Run.loop_snoc]
    exact ⟨r, h, by simpa using hr'⟩
  cases hm : r.st.marginOf (envOf L o order) b with
  | none =>
    refine ⟨_, hloop _ (h1 hm), ?_, ?_⟩
    · rw [marginOf_none_iff hfair] at hm
      simp [hpad]
      exact hm
    · simp [hpad]
  | some m =>
    obtain ⟨rep, t, hr1, hr2, -, -, hr3⟩ := h2 m hm hpad
    refine ⟨_, hloop _ hr3, ?_, ?_⟩
    · have : ¬ (r.st.marginOf (envOf L o order) b = none) := by simp [hm]
      rw [marginOf_none_iff hfair] at this
      have hne : ¬ (r.errors ++ [rep] = r.errors) := by simp
      exact iff_of_false hne this
    · intro _
      exact ⟨rep, t, m, rfl, hr1, marginOf_some hfair hm⟩

/-- At the boundary: 87.50 is held below Assets:Bank, the tolerance of 87.51 is 0.01. -/
example : IsOpen Ex.ledger Ex.bank ∧ Permits Ex.ledger Ex.bank Ex.nzd := by
  constructor
  · exact ⟨{ acc := Ex.bank }, by decide +kernel⟩
  · intro o ho
    have : life Ex.ledger Ex.bank = .opn { acc := Ex.bank } := by decide +kernel
    rw [this] at ho
    simp at ho
    subst ho
    exact Or.inl rfl

example : (match Toy.run (Ex.ledger ++ [Toy.mkBal 9 Ex.bank ⟨8751, 2⟩ Ex.nzd]) with
  | .success .. => true | _ => false) = true := by decide +kernel
example : (match Toy.run (Ex.ledger ++ [Toy.mkBal 9 Ex.bank ⟨8752, 2⟩ Ex.nzd]) with
  | .failure [⟨.accumulated _ ⟨2, 2⟩ _, _, _, _⟩] => true | _ => false) = true := by decide +kernel

end Limabean
