/-
C107: books can be closed: the balances are brought forward, and all goes on as before.
-/
import Verif.Proofs.OpeningLemmas
import Verif.Props.C102
import Verif.Props.C106

namespace Limabean

open Spec

theorem rolledUp_amount (out : List Booked.Directive) (acc cur : Str) :
    rolledUp out acc cur = amountOn (fun a => decide (Below acc a)) cur ((postings out).map fun p => (p.acc, p.units, p.cur)) := by
  unfold rolledUp sumUnits amountOn
  rw [List.filter_map, List.map_map]
  congr 2
  simp [Function.comp_def]

theorem posted_amount (out : List Booked.Directive) (acc cur : Str) :
    posted out acc cur = amountOn (fun a => decide (a = acc)) cur ((postings out).map fun p => (p.acc, p.units, p.cur)) := by
  unfold posted sumUnits amountOn
  rw [List.filter_map, List.map_map]
  congr 2
  simp [Function.comp_def]

theorem amounts_opening (date : Date) (source : Str) (ts : List Forward) (old : List Raw.Directive) :
    (openingLedger date source ts old).flatMap amounts = ts.flatMap fun t => [(t.acc, t.units, t.cur), (source, t.units.neg, t.cur)] := by
  have h1 : (opensOf old).flatMap amounts = [] := by
    rw [List.flatMap_eq_nil_iff]
    intro d hd
    have := (List.mem_filter.1 hd).2
    unfold amounts
    cases hv : d.variant <;> simp [hv] at this ⊢
  have h2 : (closesOf old).flatMap amounts = [] := by
    rw [List.flatMap_eq_nil_iff]
    intro d hd
    have := (List.mem_filter.1 hd).2
    unfold amounts
    cases hv : d.variant <;> simp [hv] at this ⊢
  unfold openingLedger
  rw [List.flatMap_append, h1, List.flatMap_cons, List.flatMap_append, h2, List.flatMap_map]
  simp [amounts, Forward.transaction]

theorem amountOn_forward (source : Str) (ts : List Forward) {a : Str} (ha : a ≠ source) (c : Str) :
    amountOn (fun b => decide (b = a)) c (ts.flatMap fun t => [(t.acc, t.units, t.cur), (source, t.units.neg, t.cur)]) =
      ((ts.filter fun t => t.acc = a ∧ t.cur = c).map fun t => t.units.val).sum := by
  induction ts with
  | nil => rfl
  | cons t ts ih =>
    simp only [List.flatMap_cons, List.cons_append, List.nil_append, amountOn_cons, ih, decide_eq_true_eq, Ne.symm ha, false_and, if_false, zero_add]
    by_cases h : t.acc = a ∧ t.cur = c
    · rw [if_pos h, List.filter_cons_of_pos (by simpa using h), List.map_cons, List.sum_cons]
    · rw [if_neg h, List.filter_cons_of_neg (by simpa using h), zero_add]

/-- **C107**: for every accepted ledger, and however its balances are brought forward (each account is opened as before, amounts which add up
to its balances are moved to it from an account which was not used before, and it is closed if it was closed): this ledger is accepted, it
leaves all accounts as they were left, and with the same balances, whichever accounts are taken together, without the additional one. -/
theorem C107 (L : BookLib) (hL : L.Lawful) (hp : BooksPlainly L) (order : AMap Str (Account L) → AMap Str (Account L)) (hf : ∀ m, (order m).Perm m)
    (o : BookOptions) (old : List Raw.Directive) (out : List Booked.Directive) (w : List IndexedReport) (h : book L order o old = .success out w)
    (date : Date) (source : Str) (ts : List Forward) (hs : life old source = .never) (hb : BringsForward old out source ts) :
    ∃ out' w', book L order o (openingLedger date source ts old) = .success out' w' ∧
      (∀ a, a ≠ source → life (openingLedger date source ts old) a = life old a) ∧
      (∀ a c, a ≠ source → posted out' a c = posted out a c) ∧
      ∀ acc cur, ¬ Below acc source → rolledUp out' acc cur = rolledUp out acc cur := by
  obtain ⟨s, hr, -⟩ := accepted_led hL hf h
  have hord := Led.orderly hL hr
  obtain ⟨s', g1, g2, g3, g4⟩ := FitsAfter.run (pre := []) (source := source) hL hp (option := o.bookingMethod) (tol := o.tolerance)
    (openingLedger date source ts old) Led.init (fun _ => rfl) (fun x d y he => by
      rw [List.nil_append]
      exact opening_fits hord date hs hb.known x d y he)
  simp only [List.length_nil] at g1 g3 g4
  have hret : returned L o.bookingMethod o.tolerance (openingLedger date source ts old) =
      emitted o.bookingMethod o.tolerance (Tally.history o.bookingMethod o.tolerance 0 (Tally.init L) (openingLedger date source ts old)) := by
    unfold returned returnedOf
    unfold filled at g3
    rw [g3]
    have : fillIn [] = id := by
      funext d
      exact fillIn_other [] (by simp)
    rw [this, List.map_id]
  have hpost : ∀ a c, a ≠ source →
      amountOn (fun b => decide (b = a)) c ((postings (returned L o.bookingMethod o.tolerance (openingLedger date source ts old))).map
        fun p => (p.acc, p.units, p.cur)) = amountOn (fun b => decide (b = a)) c ((postings out).map fun p => (p.acc, p.units, p.cur)) := by
    intro a c ha
    rw [hret, g4, amounts_opening, amountOn_forward source ts ha, hb.sums a c ha, posted_amount]
  refine ⟨_, _, (C82_returned L hL order hf o _ _ _).2 ⟨?_, rfl, rfl⟩, fun a ha => life_opening hord date ts ha, fun a c ha => ?_, fun acc cur hn => ?_⟩
  · unfold audit
    rw [g1]
    simp only [Option.map_some, Option.some.injEq, Prod.mk.injEq, true_and]
    unfold Tally.unbalanced
    rw [List.filterMap_eq_nil_iff]
    intro a _
    rw [g2]; rfl
  · rw [posted_amount, posted_amount, hpost a c ha]
  · rw [rolledUp_amount, rolledUp_amount]
    exact amountOn_same hpost _ (by simpa using hn) cur

/-- C107 with C106: whatever follows, as long as it does not use the additional account, nor assert anything on it or above it, and its
transactions do not depend on what is held: the same happens as after the old ledger. -/
theorem C107_continued (L : BookLib) (hL : L.Lawful) (hp : BooksPlainly L) (order : AMap Str (Account L) → AMap Str (Account L))
    (hf : ∀ m, (order m).Perm m) (o : BookOptions) (old : List Raw.Directive) (out : List Booked.Directive) (w : List IndexedReport)
    (h : book L order o old = .success out w) (date : Date) (source : Str) (ts : List Forward) (hs : life old source = .never)
    (hb : BringsForward old out source ts) (rest : List Raw.Directive) (hne : ∀ d ∈ rest, source ∉ accountsOf d)
    (hnb : ∀ d ∈ rest, ∀ b, d.variant = .balance b → ¬ Below b.acc source) (hc : Carries L o.tolerance (fun _ _ => True) rest) :
    ∃ out' w', book L order o (openingLedger date source ts old) = .success out' w' ∧
      SameAfter old.length (openingLedger date source ts old).length out out' w w' (book L order o (old ++ rest))
        (book L order o (openingLedger date source ts old ++ rest)) := by
  obtain ⟨out', w', h1, h2, -, h4⟩ := C107 L hL hp order hf o old out w h date source ts hs hb
  refine ⟨out', w', h1, C106_plain L hL order hf o old _ rest out out' w w' h h1 (fun d hd a ha => ?_) (fun d hd b hv => ?_) hc⟩
  · rw [h2 a fun e => hne d hd (e ▸ ha)]
    cases life old a with
    | never => exact .never
    | opn o => exact .opn _ _ rfl rfl
    | closed o => exact .closed _ _ rfl rfl
  · exact (h4 _ _ (hnb d hd b hv)).symm

namespace Ex

open Toy

/-- Two years, after which an account is closed. -/
def twoYears : List Raw.Directive := lastYear ++ [mkTxn 5 [(food, ⟨-35, 0⟩, nzd), (bank, ⟨35, 0⟩, nzd)], mkClose 6 food]

/-- The balance of the bank, in two amounts. -/
def balancesForward : List Forward :=
  [⟨day 7, bank, ⟨60, 0⟩, nzd⟩, ⟨day 7, bank, ⟨40, 0⟩, nzd⟩, ⟨day 7, equity, ⟨-1000, 1⟩, nzd⟩]

/-- The opening ledger is accepted. -/
example : bookedAt (run (openingLedger (day 7) (str% "Equity:Before") balancesForward twoYears)) =
    [(0, day 1, []), (1, day 1, []), (2, day 1, []), (3, day 7, []), (4, day 7, [(bank, ⟨60, 0⟩), (str% "Equity:Before", ⟨-60, 0⟩)]),
      (5, day 7, [(bank, ⟨40, 0⟩), (str% "Equity:Before", ⟨-40, 0⟩)]), (6, day 7, [(equity, ⟨-1000, 1⟩), (str% "Equity:Before", ⟨1000, 1⟩)]),
      (7, day 6, [])] := by
  decide +kernel

/-- These are the balances. -/
example : ∃ out, run twoYears = .success out [] ∧ BringsForward twoYears out (str% "Equity:Before") balancesForward ∧
    life twoYears (str% "Equity:Before") = .never := by
  have e : ∀ x : Outcome, (∃ out, x = .success out []) ↔ x = .success (match x with | .success out _ => out | _ => []) [] := by
    intro x
    constructor
    · rintro ⟨out, rfl⟩; rfl
    · exact fun h => ⟨_, h⟩
  refine ⟨_, (e (run twoYears)).1 ⟨_, rfl⟩, ⟨fun t ht => ?_, fun a c _ => ?_⟩, rfl⟩
  · simp only [balancesForward, List.mem_cons, List.not_mem_nil, or_false] at ht
    rcases ht with rfl | rfl | rfl
    · refine ⟨by decide, by decide, fun o ho => ?_⟩
      have : life twoYears bank = .opn { acc := bank, currencies := some [nzd], booking := none } := rfl
      rw [this] at ho
      rcases ho with ho | ho <;> cases ho
      exact .inr (by decide)
    · refine ⟨by decide, by decide, fun o ho => ?_⟩
      have : life twoYears bank = .opn { acc := bank, currencies := some [nzd], booking := none } := rfl
      rw [this] at ho
      rcases ho with ho | ho <;> cases ho
      exact .inr (by decide)
    · refine ⟨by decide, by decide, fun o ho => ?_⟩
      have : life twoYears equity = .opn { acc := equity, currencies := none, booking := none } := rfl
      rw [this] at ho
      rcases ho with ho | ho <;> cases ho
      exact .inl rfl
  · have hp : (postings (match run twoYears with | .success out _ => out | _ => [])).map (fun p => (p.acc, p.units, p.cur)) =
        [(bank, ⟨100, 0⟩, nzd), (equity, ⟨-100, 0⟩, nzd), (food, ⟨20, 0⟩, nzd), (bank, ⟨-20, 0⟩, nzd), (food, ⟨15, 0⟩, nzd),
          (bank, ⟨-15, 0⟩, nzd), (food, ⟨-35, 0⟩, nzd), (bank, ⟨35, 0⟩, nzd)] := by decide +kernel
    rw [posted_amount, hp]
    simp only [amountOn]
    by_cases hc : nzd = c
    · subst hc
      by_cases h1 : bank = a
      · subst h1
        have h2 : ¬ equity = bank := by decide
        have h3 : ¬ food = bank := by decide
        norm_num [balancesForward, h2, h3, Dec.val]
      · by_cases h2 : equity = a
        · subst h2
          have h3 : ¬ food = equity := by decide
          norm_num [balancesForward, h1, h3, Dec.val]
        · by_cases h3 : food = a
          · norm_num [balancesForward, h1, h2, h3, Dec.val]
          · norm_num [balancesForward, h1, h2, h3, Dec.val]
    · norm_num [balancesForward, hc]

end Ex

end Limabean
