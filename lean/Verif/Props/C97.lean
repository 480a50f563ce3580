/-
C97: an assertion is about the account itself, and about the accounts below it only if the plugin `limabean.balance_rollup` is enabled, as
clj/doc/60-differences.md says.

False: assertions are always about the account with those below, there is no such plugin, and a beanfile which enables it is not loaded
(`C97_false`, `C97_enabled`). It holds for accounts with nothing posted below them (`C97_partial`).
-/
import Verif.Props.C03
import Verif.Props.C67

namespace Limabean

open Spec Clj

variable {E : Ext} {L : BookLib}

/-- C97, in part: an assertion on an account, below which nothing is posted in that currency, is accepted iff the asserted amount is within
tolerance of what is posted to the account itself; if not, the report states the difference. Missing: accounts with postings below them. -/
theorem C97_partial (L : BookLib) (hL : L.Lawful) (order : AMap Str (Account L) → AMap Str (Account L))
    (hf : ∀ m, (order m).Perm m) (o : BookOptions) (ds : List Raw.Directive) (out : List Booked.Directive)
    (w : List IndexedReport) (h : book L order o ds = .success out w) (raw : Raw.Directive) (b : Raw.Balance)
    (hv : raw.variant = .balance b) (hopen : IsOpen ds b.acc) (hperm : Permits ds b.acc b.cur)
    (hb : ∀ p ∈ postings out, p.cur = b.cur → Below b.acc p.acc → p.acc = b.acc) :
    (|b.units.val - posted out b.acc b.cur| ≤ tolerance o.tolerance.multiplier b →
      ∃ d, book L order o (ds ++ [raw]) = .success (out ++ [d]) w ∧ d.variant = .balance { raw := b }) ∧
    (tolerance o.tolerance.multiplier b < |b.units.val - posted out b.acc b.cur| →
      ∃ rep total margin, book L order o (ds ++ [raw]) = .failure [rep] ∧ rep.idx = { directive := ds.length } ∧
        rep.reason = .accumulated total margin b.cur ∧ margin.val = b.units.val - posted out b.acc b.cur) := by
  have e : rolledUp out b.acc b.cur = posted out b.acc b.cur := by
    unfold rolledUp posted sumUnits
    congr 2
    refine List.filter_congr fun p hp => ?_
    by_cases hc : p.cur = b.cur
    · by_cases ha : p.acc = b.acc
      · simp [hc, ha, Below]
      · have : ¬ Below b.acc p.acc := fun h => ha (hb p hp hc h)
        simp [ha, this]
    · simp [hc]
  rw [← e]
  exact C03_decided L hL order hf o ds out w h raw b hv hopen hperm

/-- What happens if the plugin is enabled as documented: unless the user has a namespace of this name, of which there is none in limabean,
nothing is loaded, and the user reads that it could not be found. -/
theorem C97_enabled (F : Front E L) (N : Library) (hN : F.resolve = N.resolve) (ho : IsMapOrder F.ordm) (hs : IsOrder F.ord)
    (hnone : N.find (str% "limabean.balance-rollup") = none) (src : E.Sources) {p : Parsed} (hp : OptionsOk p.options) {c : Option Str}
    (hq : (str% "limabean.balance_rollup", c) ∈ p.plugins) :
    ∃ m lines, loadBeanfile F (.ready src (.ok p)) = .ok m ∧ m.directives = none ∧ (printErrors F m.pod m.error).2 = (lines, true) ∧
      str% "ERROR in plugin limabean.balance_rollup - could not load namespace for plugin" ∈ lines := by
  have hu : ∀ o raw booked, ¬ Usable N o (str% "limabean.balance_rollup", c) raw booked := by
    rintro o raw booked ⟨name, ns, c', hn, hf, -⟩
    rw [namespaceOf_iff.1 hn, show ((str% "limabean.balance_rollup").map fun c => if c = '_' then '-' else c) =
      str% "limabean.balance-rollup" from by decide +kernel, hnone] at hf
    cases hf
  obtain ⟨m, lines, h1, -, h2, h3, h4⟩ := C67_refused F N hN ho hs src hp fun o => ⟨_, hq, hu o⟩
  refine ⟨m, lines, h1, h2, h4, ?_⟩
  clear h1 h2 h4
  generalize p.plugins = l at h3 hq
  induction h3 with
  | nil => cases hq
  | used h _ ih =>
    rcases List.mem_cons.1 hq with rfl | hq
    · exact absurd h (hu _ _ _)
    · exact ih hq
  | @reported q e l ls h _ ih =>
    rcases List.mem_cons.1 hq with rfl | hq
    · have : e = str% "could not load namespace for plugin" := by
        cases h with
        | noNamespace => rfl
        | noFunction hn hf =>
          rw [namespaceOf_iff.1 hn, show ((str% "limabean.balance_rollup").map fun c => if c = '_' then '-' else c) =
            str% "limabean.balance-rollup" from by decide +kernel, hnone] at hf
          cases hf
        | badConfig hn hf =>
          rw [namespaceOf_iff.1 hn, show ((str% "limabean.balance_rollup").map fun c => if c = '_' then '-' else c) =
            str% "limabean.balance-rollup" from by decide +kernel, hnone] at hf
          cases hf
        | throws hn hf =>
          rw [namespaceOf_iff.1 hn, show ((str% "limabean.balance_rollup").map fun c => if c = '_' then '-' else c) =
            str% "limabean.balance-rollup" from by decide +kernel, hnone] at hf
          cases hf
      subst this
      exact List.mem_cons.2 (.inl rfl)
    · exact List.mem_cons_of_mem _ (ih hq)

namespace Ex

/-- 25.00 are in an account below the bank, and nothing in the bank itself. -/
def savings : List Raw.Directive :=
  [Toy.mkOpen 1 bank, Toy.mkOpen 1 current, Toy.mkOpen 1 equity, Toy.mkTxn 2 [(current, ⟨2500, 2⟩, nzd), (equity, ⟨-2500, 2⟩, nzd)]]

/-- A front end without plugins of its own. -/
def noPlugins : Library where
  find _ := none
  read _ := .error []

def bareFront : Front Toy.ext Toy.lib := { front with resolve := noPlugins.resolve }

end Ex

/-- C97 is false: without any plugin the assertion of what is in the account itself fails, and that of what is in it and below succeeds. -/
theorem C97_false :
    posted (match Toy.run Ex.savings with | .success out _ => out | _ => []) Ex.bank Ex.nzd = 0 ∧
    (∃ rep, Toy.run (Ex.savings ++ [Toy.mkBal 3 Ex.bank ⟨0, 2⟩ Ex.nzd]) = .failure [rep]) ∧
    ∃ out, Toy.run (Ex.savings ++ [Toy.mkBal 3 Ex.bank ⟨2500, 2⟩ Ex.nzd]) = .success out [] := by
  refine ⟨?_, ?_, ?_⟩
  · have : (postings (match Toy.run Ex.savings with | .success out _ => out | _ => [])).filter
        (fun p => p.acc = Ex.bank ∧ p.cur = Ex.nzd) = [] := by decide +kernel
    unfold posted sumUnits
    rw [this]
    rfl
  · have : (match Toy.run (Ex.savings ++ [Toy.mkBal 3 Ex.bank ⟨0, 2⟩ Ex.nzd]) with | .failure [_] => true | _ => false) = true := by
      decide +kernel
    split at this
    · rename_i rep h
      exact ⟨rep, h⟩
    · cases this
  · have : (match Toy.run (Ex.savings ++ [Toy.mkBal 3 Ex.bank ⟨2500, 2⟩ Ex.nzd]) with | .success _ [] => true | _ => false) = true := by
      decide +kernel
    split at this
    · rename_i out h
      exact ⟨out, h⟩
    · cases this

/-- Non-vacuity of `C97_partial`: in this ledger nothing is posted below the account, and it holds 25.00. -/
example : (∃ out, Toy.run Ex.savings = .success out [] ∧
      ∀ p ∈ postings out, p.cur = Ex.nzd → Below Ex.current p.acc → p.acc = Ex.current) ∧
    IsOpen Ex.savings Ex.current := by
  refine ⟨?_, { acc := Ex.current }, by decide +kernel⟩
  have : (match Toy.run Ex.savings with
    | .success out [] => decide (∀ p ∈ postings out, p.cur = Ex.nzd → Below Ex.current p.acc → p.acc = Ex.current)
    | _ => false) = true := by decide +kernel
  split at this
  · rename_i out h
    exact ⟨out, h, of_decide_eq_true this⟩
  · cases this

/-- Non-vacuity of `C97_enabled`: the same ledger loads without the line, and does not with it. -/
example : Ex.bareFront.resolve = Ex.noPlugins.resolve ∧ Ex.noPlugins.find (str% "limabean.balance-rollup") = none ∧
    (Ex.loadedDates Ex.bareFront (Ex.withLines [])).map List.length = some 2 ∧
    (Ex.loadedDates Ex.bareFront (Ex.withLines [(str% "limabean.balance_rollup", none)])).isNone = true := by
  refine ⟨rfl, rfl, by decide +kernel, by decide +kernel⟩

end Limabean
