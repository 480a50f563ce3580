/-
C95: what is shown is the report.
-/
import Verif.Proofs.ShowLemmas
import Verif.Props.Examples

namespace Limabean

open Clj Spec JsonText

/-- Whatever is shown, it is laid out as it is, provided that it is not nested too deeply. -/
theorem C95_shown (T : Tabulator) (c : Cell) (h : nesting (cellJson c) < 128) (ha : Anchored c) :
    showCell (tabulate T) c = .ok (T.layout c ++ ['\n']) := by
  simp only [showCell, render, tabulate_cell T h ha, trySh, if_pos]

/-- Reports never are: an inventory, a journal or a rollup is always shown, whatever is in it. -/
theorem C95_reports (T : Tabulator) (order : List Str → List Str) (inv : AMap Str (List Position)) (j : List JournalEntry)
    (r : AMap Str RollupEntry) :
    showCell (tabulate T) (inventoryCell order inv) = .ok (T.layout (inventoryCell order inv) ++ ['\n']) ∧
    showCell (tabulate T) (journalCell j) = .ok (T.layout (journalCell j) ++ ['\n']) ∧
    showCell (tabulate T) (rollupCell order r) = .ok (T.layout (rollupCell order r) ++ ['\n']) := by
  have h1 : Fine 15 (inventoryCell order inv) := fine_map (by omega) order fine_positions inv
  have h2 : Fine 15 (journalCell j) := by
    refine fine_vector (by omega) fun x hx => ?_
    obtain ⟨e, -, rfl⟩ := List.mem_map.1 hx
    exact fine_journalEntry e
  have h3 : Fine 10 (rollupCell order r) := fine_map (by omega) order fine_rollupEntry r
  exact ⟨C95_shown T _ (by have := h1.2; omega) h1.1, C95_shown T _ (by have := h2.2; omega) h2.1,
    C95_shown T _ (by have := h3.2; omega) h3.1⟩

/-- What is sent to be laid out determines the cell. -/
theorem C95_sent {c d : Cell} (h : jackson.write (cellJson c) = jackson.write (cellJson d)) : c = d := by
  have h1 := read_write jackson_readable (cellJson c)
  rw [h, read_write jackson_readable] at h1
  exact cellJson_inj c d (Option.some.inj h1).symm

/-- An inventory is shown without loss: inventories which are shown alike have the same positions in each account, but for the totals of
costs. -/
theorem C95_inventory {order order' : List Str → List Str} (ho : KeyOrder order) (ho' : KeyOrder order')
    {inv inv' : AMap Str (List Position)} (hd : ∀ acc, ∀ ps ∈ inv.get acc, DatedPositions ps)
    (hd' : ∀ acc, ∀ ps ∈ inv'.get acc, DatedPositions ps) (h : inventoryCell order inv = inventoryCell order' inv') (acc : Str) :
    Option.Rel (List.Forall₂ SameShown) (inv.get acc) (inv'.get acc) := by
  have h1 := mapCell_inj ho ho' h acc
  cases e1 : inv.get acc with
  | none =>
    cases e2 : inv'.get acc with
    | none => exact .none
    | some qs => rw [e1, e2] at h1; simp at h1
  | some ps =>
    cases e2 : inv'.get acc with
    | none => rw [e1, e2] at h1; simp at h1
    | some qs =>
      rw [e1, e2] at h1
      exact .some (positionsCell_inj (hd acc ps e1) (hd' acc qs e2) (Option.some.inj h1))

/-- A journal is shown without loss: journals which are shown alike have entries with the same date, account, payee, narration, flag,
units, currency and balance, in the same order. -/
theorem C95_journal {j k : List JournalEntry} (hj : ∀ e ∈ j, CalendarDate e.row.date ∧ DatedPositions e.bal)
    (hk : ∀ e ∈ k, CalendarDate e.row.date ∧ DatedPositions e.bal) (h : journalCell j = journalCell k) :
    List.Forall₂ SameShownEntry j k := by
  have := vectorCell_inj (fun c hc => by obtain ⟨p, -, rfl⟩ := List.mem_map.1 hc; exact ⟨_, _, rfl⟩)
    (fun c hc => by obtain ⟨p, -, rfl⟩ := List.mem_map.1 hc; exact ⟨_, _, rfl⟩) h
  exact forall₂_of_map_eq
    (fun e he f hf => journalEntryCell_inj (hj e he).1 (hk f hf).1 (hj e he).2 (hk f hf).2) this

/-- A rollup is shown without loss: rollups which are shown alike have the same accounts, with the same numbers in the same columns. -/
theorem C95_rollup {order order' : List Str → List Str} (ho : KeyOrder order) (ho' : KeyOrder order') {r r' : AMap Str RollupEntry}
    (h : rollupCell order r = rollupCell order' r') (acc : Str) : (r.get acc).map entryCells = (r'.get acc).map entryCells := by
  have h1 := mapCell_inj ho ho' h acc
  cases e1 : r.get acc with
  | none =>
    cases e2 : r'.get acc with
    | none => rfl
    | some qs => rw [e1, e2] at h1; simp at h1
  | some ps =>
    cases e2 : r'.get acc with
    | none => rw [e1, e2] at h1; simp at h1
    | some qs =>
      rw [e1, e2] at h1
      simp only [Option.map_some, Option.some.injEq] at h1 ⊢
      exact rollupEntryCell_inj h1

/-- The order in which a map is iterated does not matter for how it is shown. -/
theorem C95_order {order order' : List Str → List Str} (ho : KeyOrder order) (ho' : KeyOrder order') {inv : AMap Str (List Position)}
    {r : AMap Str RollupEntry} (hi : inv.keys.Nodup) (hr : r.keys.Nodup) :
    inventoryCell order inv = inventoryCell order' inv ∧ rollupCell order r = rollupCell order' r :=
  ⟨mapCell_order ho ho' hi, mapCell_order ho ho' hr⟩

/-- A vector of a vector of … and so on, each with another item. -/
def Spec.nested : Nat → Val
  | 0 => .nil
  | n + 1 => .vector [Spec.nested n, .nil]

theorem nesting_nested (srt : TrySort) : ∀ n, nesting (cellJson (cell srt (Spec.nested n))) = 2 * n + 1
  | 0 => by simp [Spec.nested, cell, cellJson, nesting, nestingMembers]
  | n + 1 => by
    have h := nesting_nested srt n
    have e : cell srt (Spec.nested (n + 1)) = .stack [cell srt (Spec.nested n), .empty] := by
      rw [Spec.nested, cell]
      simp only [cells, cell, vectorCell]
    rw [e]
    simp only [cellJson, cellsJson, nesting, nestingMembers, nestingElements, h]
    omega

/-- Not everything can be shown: values nested 64 deep or more cannot, though they are values like any other. -/
theorem C95_deep (T : Tabulator) (srt : TrySort) (n : Nat) :
    (∃ s, showCell (tabulate T) (cell srt (Spec.nested n)) = .ok s) ↔ n < 64 := by
  have h := nesting_nested srt n
  have ha : ∀ n, Anchored (cell srt (Spec.nested n)) := by
    intro n
    induction n with
    | zero => simp [Spec.nested, cell, Anchored]
    | succ n ih => simp [Spec.nested, cell, cells, vectorCell, Anchored, AllAnchored, ih]
  constructor
  · rintro ⟨s, hs⟩
    by_contra hn
    have hn' : ¬ nesting (cellJson (cell srt (Spec.nested n))) < 128 := by omega
    simp [showCell, render, tabulate, read_write jackson_readable, if_neg hn', trySh] at hs
  · intro hn
    exact ⟨_, C95_shown T _ (by omega) (ha n)⟩

/-- If a report cannot be laid out, the exception carries what the program wrote, or why it could not be started. -/
theorem C95_failure_partial (sh : Str → ShRun) (c : Cell) :
    (∀ status out err, sh (jackson.write (cellJson c)) = .exited status out err → status ≠ 0 →
      showCell sh c = .error ⟨str% "limabean-podfailed", err⟩) ∧
    ∀ message, sh (jackson.write (cellJson c)) = .failed message →
      showCell sh c = .error ⟨str% "limabean-podexception", message ++ ['\n']⟩ := by
  constructor
  · intro status out err h hs
    simp [showCell, render, h, trySh, hs]
  · intro message h
    simp [showCell, render, h, trySh]

/-- But what an interactive session prints for it does not depend on either. -/
theorem C95_untold (sh : Str → ShRun) (c : Cell) (e : UserError) (h : showCell sh c = .error e) :
    exceptionText e.exc = str% "Exception: limabean-podfailed\n" ∨ exceptionText e.exc = str% "Exception: limabean-podexception\n" := by
  simp only [showCell, render, trySh] at h
  split at h
  · split at h
    · cases h
    · cases h
      exact .inl rfl
  · cases h
    exact .inr rfl

/-- So it is false that the user of a session is told why a report cannot be laid out. -/
theorem C95_told_false : ¬∀ (sh : Str → ShRun) (c : Cell) (status : Nat) (out err : Str) (e : UserError),
    sh (jackson.write (cellJson c)) = .exited status out err → status ≠ 0 → showCell sh c = .error e → err <:+: exceptionText e.exc := by
  intro h
  have h1 := h (fun _ => .exited 1 [] (str% "thread 'main' panicked")) .empty 1 [] (str% "thread 'main' panicked")
    ⟨str% "limabean-podfailed", str% "thread 'main' panicked"⟩ rfl (by decide) rfl
  have h2 : 'h' ∈ exceptionText (UserError.exc ⟨str% "limabean-podfailed", str% "thread 'main' panicked"⟩) :=
    h1.subset (by decide)
  exact absurd h2 (by decide)

namespace Ex

/-- An inventory with a lot and an amount. -/
def shownInv : AMap Str (List Position) :=
  [(food, [{ units := ⟨1250, 2⟩, cur := nzd }]),
   (bank, [{ units := ⟨5, 0⟩, cur := nzd },
     { units := ⟨3, 0⟩, cur := usd, cost := some { date := Toy.day 3, perUnit := ⟨15, 1⟩, total := ⟨45, 1⟩, cur := nzd, merge := true } }])]

def aToyTabulator : Tabulator := ⟨fun c => jackson.write (cellJson c), fun _ => str% "bad"⟩

example : showCell (tabulate aToyTabulator) (inventoryCell id shownInv) =
    .ok (aToyTabulator.layout (inventoryCell id shownInv) ++ ['\n']) := (C95_reports aToyTabulator id shownInv [] []).1

/-- What is sent, accounts sorted. -/
example : inventoryCell List.reverse shownInv = .stack
    [.row [.aligned bank, .stack
       [.row [.row [.anchored (str% "5") 0, .aligned nzd] (str% " ")] (str% "  "),
        .row [.row [.anchored (str% "3") 0, .aligned usd] (str% " "),
          .row [.aligned (Wire.fmtDate (Toy.day 3)), .aligned nzd, .anchored (str% "1.5") 0, .empty, .aligned (str% "*")] (str% " ")] (str% "  ")]]
       (str% "  "),
     .row [.aligned food, .row [.row [.anchored (str% "12.50") 1, .aligned nzd] (str% " ")] (str% "  ")] (str% "  ")] := by rfl

/-- Another total of the cost is not seen, another number is. -/
example : (∀ acc, ∀ ps ∈ AMap.get shownInv acc, DatedPositions ps) ∧ KeyOrder List.reverse := by
  refine ⟨fun acc ps hps p hp c hc => ?_, fun l => List.reverse_perm l⟩
  have hm : p.cost = none ∨ p.cost = some { date := Toy.day 3, perUnit := ⟨15, 1⟩, total := ⟨45, 1⟩, cur := nzd, merge := true } := by
    unfold shownInv AMap.get at hps
    split at hps
    · cases hps
      simp at hp
      subst hp
      exact .inl rfl
    · unfold AMap.get at hps
      split at hps
      · cases hps
        simp at hp
        rcases hp with rfl | rfl
        · exact .inl rfl
        · exact .inr rfl
      · cases hps
  rcases hm with h | h
  · rw [h] at hc; cases hc
  · rw [h] at hc; cases hc
    exact Wire.validDate_iff.1 (by decide +kernel)

example : shownInv.keys.Nodup := by decide +kernel

/-- The journal of a ledger has entries; their dates are dates of the calendar, and there are no costs in the balances. -/
example : (journalBuild (postingRows out)).length = 7 ∧
    ∀ e ∈ journalBuild (postingRows out), CalendarDate e.row.date ∧ DatedPositions e.bal := by
  have h : (journalBuild (postingRows out)).length = 7 ∧
      ∀ e ∈ journalBuild (postingRows out), Wire.validDate e.row.date = true ∧ ∀ p ∈ e.bal, p.cost = none := by decide +kernel
  refine ⟨h.1, fun e he => ⟨Wire.validDate_iff.1 (h.2 e he).1, fun p hp c hc => ?_⟩⟩
  rw [(h.2 e he).2 p hp] at hc
  cases hc

end Ex

end Limabean
