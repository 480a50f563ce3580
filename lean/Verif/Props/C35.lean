/-
C35: the running balance of a journal.
-/
import Verif.Props.C34

namespace Limabean

open Spec Clj

namespace Clj

theorem withBal_length (s : Inv) (rows : List Row) : (withBal s rows).length = rows.length := by
  induction rows generalizing s with
  | nil => rfl
  | cons r rows ih => simp [withBal, ih]

theorem withBal_get (s : Inv) (rows : List Row) (n : Nat) :
    (withBal s rows)[n]? = rows[n]?.map fun r => { row := r.withoutCost, bal :=
      (((rows.take (n + 1)).map fun r => positionOf r.withoutCost.posting).foldl Inv.accumulate s).positions } := by
  induction rows generalizing s n with
  | nil => simp [withBal]
  | cons r rows ih =>
    cases n with
    | zero => simp [withBal]
    | succ n => simp [withBal, ih]

theorem combine_single {l : List Position} (h : ∀ p ∈ l, p.cost = none) :
    (scaOf .append l).visit.Pairwise fun _ _ => False := by
  have e : scaOf .append l = _ := append_fold l none []
  rw [e]
  have : l.filter (fun p => p.cost.isSome) = [] := by
    rw [List.filter_eq_nil_iff]
    intro p hp
    simp [h p hp]
  simp only [Sca.visit, List.nil_append, this, List.append_nil]
  cases combine none (l.filter fun p => p.cost.isNone) <;> simp

theorem positionsOf_simple {l : List Position} (h : ∀ p ∈ l, p.cost = none) :
    (positionsOf .append l).Pairwise (fun p q => p.cur < q.cur) ∧ ∀ p ∈ positionsOf .append l, p.cost = none := by
  constructor
  · unfold positionsOf
    have hcur : ∀ c, ∀ p ∈ (scaOf .append (l.filter fun p => p.cur = c)).visit.filter (fun p => !p.units.isZero),
        p.cur = c := by
      intro c p hp
      obtain ⟨q, hq, h, -⟩ := visit_cur .append (List.mem_of_mem_filter hp)
      rw [h]
      simpa using List.of_mem_filter hq
    rw [List.pairwise_flatMap]
    constructor
    · intro c _
      exact ((combine_single fun p hp => h p (List.mem_of_mem_filter hp)).filter _).imp fun h => h.elim
    · refine (sortBy_strict cmpStr_total (List.nodup_dedup _)).imp fun {c d} hcd p hp q hq => ?_
      rw [hcur c p hp, hcur d q hq]
      exact cmpStr_lt.1 hcd
  · intro p hp
    simp only [positionsOf, List.mem_flatMap, List.mem_filter] at hp
    obtain ⟨c, -, hp, -⟩ := hp
    obtain ⟨q, hq, -, hc⟩ := visit_cur .append hp
    rw [hc, h q (List.mem_of_mem_filter hq)]

end Clj

/-- C35: a journal has one entry for each selected posting, in the order of the ledger: with the date, payee and narration of its
transaction, and the posting without its cost. -/
theorem C35_rows (b : Beans) (fs : List Filter) :
    (journal b fs).map JournalEntry.row = (selection b.directives fs).map fun x =>
      { date := x.date, payee := x.payee, narration := x.narration, posting := { x.posting with cost := none } } := by
  unfold journal journalBuild
  rw [reportRows_eq]
  generalize selection b.directives fs = rows
  generalize ({ rule := .append } : Inv) = s
  induction rows generalizing s with
  | nil => rfl
  | cons r rows ih => simp [withBal, Row.withoutCost, ih]

/-- C35: the balance of an entry has for each currency at most one position, in ascending order of currency, none with zero
units or a cost; its units are the sum of the units of all entries up to this one in that currency. -/
theorem C35_balance (b : Beans) (fs : List Filter) (n : Nat) (e : JournalEntry) (he : (journal b fs)[n]? = some e) :
    e.bal.Pairwise (fun p q => p.cur < q.cur) ∧
    (∀ p ∈ e.bal, p.units.val ≠ 0 ∧ p.cost = none) ∧
    ∀ cur, totalUnits Position.units e.bal (fun p => p.cur = cur) =
      totalUnits (fun x => x.row.posting.units) ((journal b fs).take (n + 1)) (fun x => x.row.posting.cur = cur) := by
  unfold journal journalBuild at *
  generalize reportRows b.directives fs = rows at *
  rw [withBal_get, positions_fold] at he
  simp only [Option.map_eq_some_iff] at he
  obtain ⟨r, hn, rfl⟩ := he
  simp only
  have hc : ∀ p ∈ (rows.take (n + 1)).map (fun r => positionOf r.withoutCost.posting), p.cost = none := by
    intro p hp
    obtain ⟨r, -, rfl⟩ := List.mem_map.1 hp
    rfl
  refine ⟨(positionsOf_simple hc).1, fun p hp => ⟨positionsOf_nonzero _ _ hp, (positionsOf_simple hc).2 p hp⟩, fun cur => ?_⟩
  rw [totalUnits_eq, positionsOf_weight (f := fun p => if p.cur = cur then 1 else 0) (fun p q h _ => by simp [h]), totalUnits_eq]
  have e : ((withBal { rule := .append } rows).take (n + 1)).map JournalEntry.row =
      (rows.take (n + 1)).map Row.withoutCost := by
    have : (withBal { rule := .append } rows).map JournalEntry.row = rows.map Row.withoutCost := by
      generalize ({ rule := .append } : Inv) = s
      clear hn hc
      induction rows generalizing s with
      | nil => rfl
      | cons r rows ih => simp [withBal, ih]
    rw [List.map_take, this, ← List.map_take]
  have e2 : ((withBal { rule := .append } rows).take (n + 1)).map (fun a =>
      (if a.row.posting.cur = cur then (1 : ℚ) else 0) * a.row.posting.units.val) =
      (((withBal { rule := .append } rows).take (n + 1)).map JournalEntry.row).map fun r =>
        (if r.posting.cur = cur then (1 : ℚ) else 0) * r.posting.units.val := by
    rw [List.map_map]; rfl
  rw [e2, e, List.map_map, List.map_map]
  rfl

/-- A posting with cost. -/
def Ex.purchase : Booked.Posting :=
  { acc := Ex.bank, units := ⟨5, 0⟩, cur := Ex.usd, cost := some ⟨⟨2024, 1, 1⟩, ⟨15, 1⟩, ⟨75, 1⟩, Ex.nzd, none, false⟩ }

/-- A purchase and a payment and a sale. -/
example : (journalBuild
    [{ date := ⟨2024, 1, 1⟩, posting := Ex.purchase },
     { date := ⟨2024, 1, 1⟩, posting := { acc := Ex.bank, units := ⟨-75, 1⟩, cur := Ex.nzd } },
     { date := ⟨2024, 1, 2⟩, posting := { acc := Ex.bank, units := ⟨-5, 0⟩, cur := Ex.usd } }]).map JournalEntry.bal =
    [[⟨⟨5, 0⟩, Ex.usd, none⟩], [⟨⟨-75, 1⟩, Ex.nzd, none⟩, ⟨⟨5, 0⟩, Ex.usd, none⟩], [⟨⟨-75, 1⟩, Ex.nzd, none⟩]] := by
  decide +kernel

end Limabean
