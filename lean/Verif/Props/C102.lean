/-
C102: a pad is an abbreviation for a transaction.
-/
import Verif.Proofs.UnpaddedLemmas
import Verif.Props.C82
import Verif.Props.C90

namespace Limabean

open Spec

/-- What an account and those below it hold is determined by the movements, in whatever order. -/
theorem rolledUp_movements {l m : List Booked.Directive} (h : (movements l).Perm (movements m)) (acc cur : Str) :
    rolledUp l acc cur = rolledUp m acc cur := by
  have key : ∀ l : List Booked.Directive, rolledUp l acc cur =
      (((movements l).filter fun p => decide (Below acc p.acc ∧ p.cur = cur)).map fun p => p.units.val).sum := by
    intro l
    unfold rolledUp sumUnits movements
    rw [List.filter_map, List.map_map]
    rfl
  rw [key, key]
  exact ((h.filter _).map _).sum_eq

/-- C102: for every ledger which is accepted, and in which the sources of pads are such that one may post to them: the ledger in which each
pad is replaced by a transaction, directly before the assertion which fills the pad, with any date, is accepted too, with the same warnings.
Every amount which is moved in one is moved in the other, so that all accounts hold the same; and all else is returned as it was, in the same
order. -/
theorem C102_partial (L : BookLib) (hL : L.Lawful) (hp : BooksPlainly L) (order : AMap Str (Account L) → AMap Str (Account L))
    (hf : ∀ m, (order m).Perm m) (o : BookOptions) (ds : List Raw.Directive) (out : List Booked.Directive) (w : List IndexedReport)
    (h : book L order o ds = .success out w) (hs : Spellable L o.bookingMethod o.tolerance ds) (dates : Nat → Date) :
    ∃ out' w', book L order o (withoutPads L o.bookingMethod o.tolerance dates ds) = .success out' w' ∧
      w'.map IndexedReport.reason = w.map IndexedReport.reason ∧
      (movements out').Perm (movements out) ∧
      (∀ acc cur, rolledUp out' acc cur = rolledUp out acc cur) ∧
      (out'.filter notPadding).map unnumbered = (out.filter notPadding).map unnumbered := by
  obtain ⟨ha, rfl, rfl⟩ := (C82_returned L hL order hf o ds out w).1 h
  unfold audit at ha
  cases hr : Tally.run o.bookingMethod o.tolerance 0 (Tally.init L) ds with
  | none => simp [hr] at ha
  | some q =>
    obtain ⟨s, fs⟩ := q
    simp only [hr, Option.map_some, Option.some.injEq, Prod.mk.injEq] at ha
    obtain ⟨rfl, -⟩ := ha
    obtain ⟨t, r1, r2, r3, r4, r5, r6⟩ := Spelt.run hL hp dates ds Spelt.init Kept.init hr
      (fun x n d b k src hx hv => hs x n d b k src hx hv) 0
    have hout : returned L o.bookingMethod o.tolerance (withoutPads L o.bookingMethod o.tolerance dates ds) =
        emitted o.bookingMethod o.tolerance (Tally.history o.bookingMethod o.tolerance 0 (Tally.init L)
          (withoutPads L o.bookingMethod o.tolerance dates ds)) := by
      unfold returned returnedOf
      have := r3
      unfold filled at this
      unfold withoutPads
      rw [this]
      conv_rhs => rw [← List.map_id (emitted _ _ _)]
      exact List.map_congr_left fun x _ => fillIn_other [] (by simp)
    obtain ⟨m1, m2⟩ := returned_moved ds (B := []) (F := []) (s := Tally.init L) (n := 0)
      ⟨by simp [Tally.init], by simp [Tally.init], by simp, by simp⟩ (by intro i j d d' h; simp at h) (by simp)
      (by intro a k src h; cases h) hr
    simp only [List.nil_append, List.map_nil, List.filter_nil, show movements [] = [] from rfl] at m1 m2
    have hperm : (movements (returned L o.bookingMethod o.tolerance (withoutPads L o.bookingMethod o.tolerance dates ds))).Perm
        (movements (returned L o.bookingMethod o.tolerance ds)) := by
      rw [hout]
      exact r4.trans m1.symm
    refine ⟨_, _, (C82_returned L hL order hf o _ _ _).2 ⟨?_, rfl, rfl⟩, r6, hperm, rolledUp_movements hperm, ?_⟩
    · unfold audit
      rw [show Tally.run o.bookingMethod o.tolerance 0 (Tally.init L) (withoutPads L o.bookingMethod o.tolerance dates ds) = some (t, []) from r1]
      simp [Tally.unbalanced, r2.pending]
    · rw [hout]
      exact r5.trans (congrArg _ m2.symm)

/-- There are no pads in it. -/
theorem withoutPads_pads (L : BookLib) (option : Option Booking) (tol : Tolerance) (dates : Nat → Date) (ds : List Raw.Directive) :
    ∀ d ∈ withoutPads L option tol dates ds, ∀ p, d.variant ≠ .pad p := by
  intro d hd p hv
  unfold withoutPads at hd
  obtain ⟨x, -, hx⟩ := List.mem_flatMap.1 hd
  unfold spelled at hx
  split at hx
  · cases hx
  · rename_i hn
    rcases List.mem_append.1 hx with hx | hx
    · obtain ⟨f, -, rfl⟩ := List.mem_map.1 hx
      cases hv
    · rw [List.mem_singleton] at hx
      subst hx
      exact hn p hv

/-- C102 with C90: so, whatever pads there are, one can write down books which are the same and which are booked again as they are printed. -/
theorem C102_again (L : BookLib) (hL : L.Lawful) (hp : BooksPlainly L) (hr : Rebooks L) (order : AMap Str (Account L) → AMap Str (Account L))
    (hf : ∀ m, (order m).Perm m) (o : BookOptions) (ds : List Raw.Directive) (out : List Booked.Directive) (w : List IndexedReport)
    (h : book L order o ds = .success out w) (hs : Spellable L o.bookingMethod o.tolerance ds) (dates : Nat → Date) :
    ∃ out' w' out'', book L order o (withoutPads L o.bookingMethod o.tolerance dates ds) = .success out' w' ∧
      (movements out').Perm (movements out) ∧
      book L order o (out'.map asWritten) = .success out'' w' ∧ out''.map asWritten = out'.map asWritten := by
  obtain ⟨out', w', h1, -, h3, -⟩ := C102_partial L hL hp order hf o ds out w h hs dates
  obtain ⟨out'', h4, h5, -⟩ := C90_partial hL hr order o (withoutPads_pads L _ _ _ _) h1
  exact ⟨out', w', out'', h1, h3, h4, h5⟩

namespace Toy

theorem lib_plainly : BooksPlainly lib := by
  intro d tol inv bk a b u c flag p q hne ha hb
  refine ⟨_, rfl, rfl, ?_⟩
  funext x
  have hne' : b ≠ a := fun e => hne e.symm
  simp [lib, hne, hne', applyAll, addPosting, interpolate, ha, hb, accumulate]
  rfl

end Toy

namespace Ex

open Toy

/-- What becomes of a ledger, and of the one without pads: the amounts which are moved, or the reasons. -/
def bothWays (ds : List Raw.Directive) : List (Option (List (Str × Dec)) × List Reason) :=
  let told : Outcome → Option (List (Str × Dec)) × List Reason
    | .success out _ => (some ((movements out).map fun p => (p.acc, p.units)), [])
    | .failure es => (none, es.map IndexedReport.reason)
    | .panic => (none, [])
  [told (run ds), told (run (withoutPads lib none {} (fun _ => day 3) ds))]

/-- A pad, a purchase before the assertion which fills the pad, and another purchase. -/
def paddedBank : List Raw.Directive :=
  [mkOpen 1 equity, mkOpen 1 bank, mkOpen 1 food, mkPad 2 bank equity, mkTxn 3 [(food, ⟨20, 0⟩, nzd), (bank, ⟨-20, 0⟩, nzd)],
    mkBal 4 bank ⟨100, 0⟩ nzd, mkTxn 5 [(food, ⟨7, 0⟩, nzd), (bank, ⟨-7, 0⟩, nzd)]]

/-- It can be written without pads: 120 are moved right before the assertion. -/
example : bothWays paddedBank =
    [(some [(bank, ⟨120, 0⟩), (equity, ⟨-120, 0⟩), (food, ⟨20, 0⟩), (bank, ⟨-20, 0⟩), (food, ⟨7, 0⟩), (bank, ⟨-7, 0⟩)], []),
     (some [(food, ⟨20, 0⟩), (bank, ⟨-20, 0⟩), (bank, ⟨120, 0⟩), (equity, ⟨-120, 0⟩), (food, ⟨7, 0⟩), (bank, ⟨-7, 0⟩)], [])] := by
  decide +kernel

/-- It meets the conditions of the theorem. -/
example : Spellable lib none {} paddedBank := by
  intro s n d b k src hx hv hq
  have key : ∀ x ∈ Tally.history none {} 0 (Tally.init lib) paddedBank, (match x.2.2.variant with
      | .balance b => match x.1.pending b.acc with
        | some (_, src) => decide (x.1.usage src b.cur = none ∧ ¬ Below b.acc src ∧ b.tolerance = none ∧ b.units.s = 0)
        | none => true
      | _ => true) = true := by
    decide +kernel
  have := key _ hx
  simp only [hv, hq, decide_eq_true_eq] at this
  obtain ⟨h1, h2, h3, h4⟩ := this
  exact ⟨h1, h2, by simp [tolerance, h3, h4]⟩

end Ex

/-- C102 is false of pads whose source is closed before the assertion, does not take the currency, or is below the asserted account: the
ledger is accepted with the pad, but not with the transaction. -/
theorem C102_false :
    Ex.bothWays [Toy.mkOpen 1 Ex.equity, Toy.mkOpen 1 Ex.bank, Toy.mkPad 2 Ex.bank Ex.equity, Toy.mkClose 3 Ex.equity,
        Toy.mkBal 4 Ex.bank ⟨100, 0⟩ Ex.nzd] =
      [(some [(Ex.bank, ⟨100, 0⟩), (Ex.equity, ⟨-100, 0⟩)], []), (none, [.accountClosed, .accumulated ⟨0, 0⟩ ⟨100, 0⟩ Ex.nzd])] ∧
    Ex.bothWays [Toy.mkOpen 1 Ex.equity (some [str% "USD"]), Toy.mkOpen 1 Ex.bank, Toy.mkPad 2 Ex.bank Ex.equity,
        Toy.mkBal 4 Ex.bank ⟨100, 0⟩ Ex.nzd] =
      [(some [(Ex.bank, ⟨100, 0⟩), (Ex.equity, ⟨-100, 0⟩)], []), (none, [.currencyIncompatible, .accumulated ⟨0, 0⟩ ⟨100, 0⟩ Ex.nzd])] ∧
    Ex.bothWays [Toy.mkOpen 1 (Ex.bank ++ str% ":Savings"), Toy.mkOpen 1 Ex.bank, Toy.mkPad 2 Ex.bank (Ex.bank ++ str% ":Savings"),
        Toy.mkBal 4 Ex.bank ⟨100, 0⟩ Ex.nzd] =
      [(some [(Ex.bank, ⟨100, 0⟩), (Ex.bank ++ str% ":Savings", ⟨-100, 0⟩)], []), (none, [.accumulated ⟨0, 0⟩ ⟨100, 0⟩ Ex.nzd])] := by
  refine ⟨?_, ?_, ?_⟩ <;> decide +kernel

end Limabean
