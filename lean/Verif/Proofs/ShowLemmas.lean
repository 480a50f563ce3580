/-
Lemmas on showing reports, for C95.
-/
import Verif.Clj.Show
import Verif.Spec.Shown
import Verif.Proofs.JsonTextLemmas
import Verif.Props.C51

namespace Limabean
namespace Clj

open Spec JsonText

/-! ### Reading back -/

mutual
theorem readCell_cellJson : ∀ c : Cell, Anchored c → readCell (cellJson c) = some c
  | .empty, _ => by simp [cellJson, readCell]
  | .stack cs, h => by
    rw [Anchored] at h
    simp [cellJson, readCell, readCells_cellsJson cs h]
  | .row cs g, h => by
    rw [Anchored] at h
    simp [cellJson, readCell, readRow, readCells_cellsJson cs h]
  | .aligned s, _ => by simp [cellJson, readCell]
  | .anchored s i, h => by
    rw [Anchored] at h
    simp [cellJson, readCell, h]
theorem readCells_cellsJson : ∀ cs : List Cell, AllAnchored cs → readCells (cellsJson cs) = some cs
  | [], _ => by simp [cellsJson, readCells]
  | c :: cs, h => by
    rw [AllAnchored] at h
    simp [cellsJson, readCells, readCell_cellJson c h.1, readCells_cellsJson cs h.2]
end

theorem tabulate_cell (T : Tabulator) {c : Cell} (h : nesting (cellJson c) < 128) (ha : Anchored c) :
    tabulate T (jackson.write (cellJson c)) = .exited 0 (T.layout c ++ ['\n']) [] := by
  simp only [tabulate, read_write jackson_readable, if_pos h, readCell_cellJson c ha]

mutual
theorem cellJson_inj : ∀ c d : Cell, cellJson c = cellJson d → c = d
  | .empty, d, h => by cases d <;> simp_all [cellJson]
  | .stack cs, d, h => by
    cases d with
    | stack ds =>
      simp only [cellJson, Json.obj.injEq, List.cons.injEq, Prod.mk.injEq, Json.arr.injEq, true_and, and_true] at h
      rw [cellsJson_inj cs ds h]
    | _ => simp [cellJson] at h
  | .row cs g, d, h => by
    cases d with
    | row ds g' =>
      simp only [cellJson, Json.obj.injEq, List.cons.injEq, Prod.mk.injEq, Json.arr.injEq, Json.str.injEq, true_and, and_true] at h
      rw [cellsJson_inj cs ds h.1, h.2]
    | _ => simp [cellJson] at h
  | .aligned s, d, h => by cases d <;> simp_all [cellJson]
  | .anchored s i, d, h => by cases d <;> simp_all [cellJson]
theorem cellsJson_inj : ∀ cs ds : List Cell, cellsJson cs = cellsJson ds → cs = ds
  | [], ds, h => by cases ds <;> simp_all [cellsJson]
  | c :: cs, ds, h => by
    cases ds with
    | nil => simp [cellsJson] at h
    | cons d ds =>
      simp only [cellsJson, List.cons.injEq] at h
      rw [cellJson_inj c d h.1, cellsJson_inj cs ds h.2]
end

/-! ### Depth -/

/-- Anchored well and nested at most so deep. -/
def Fine (n : Nat) (c : Cell) : Prop := Anchored c ∧ nesting (cellJson c) ≤ n

theorem Fine.mono {m n : Nat} {c : Cell} (h : Fine m c) (hm : m ≤ n) : Fine n c := ⟨h.1, h.2.trans hm⟩

theorem all_fine {n : Nat} : ∀ {cs : List Cell}, (∀ c ∈ cs, Fine n c) → AllAnchored cs ∧ nestingElements (cellsJson cs) ≤ n
  | [], _ => by simp [AllAnchored, cellsJson, nestingElements]
  | c :: cs, h => by
    have h1 := h c List.mem_cons_self
    have h2 := all_fine fun x hx => h x (List.mem_cons_of_mem _ hx)
    simp only [AllAnchored, cellsJson, nestingElements]
    exact ⟨⟨h1.1, h2.1⟩, max_le h1.2 h2.2⟩

theorem fine_empty : Fine 2 .empty := by simp [Fine, Anchored, cellJson, nesting, nestingMembers]

theorem fine_aligned (s : Str) : Fine 2 (.aligned s) := by
  simp [Fine, Anchored, cellJson, nesting, nestingMembers, nestingElements]

theorem fine_opt (o : Option Str) : Fine 2 (optCell o) := by
  cases o
  · exact fine_empty
  · exact fine_aligned _

theorem fine_num (d : Dec) : Fine 2 (numCell d) := by
  obtain ⟨c, s, h, hc⟩ := decText_head d
  have hn : ∀ x : Char, x = '.' ∨ x = '/' → ¬(('0' ≤ x ∧ x ≤ '9') ∨ x = '-') := by rintro x (rfl | rfl) <;> decide
  obtain ⟨i, h1, -⟩ := C51_within (decText d) (by rw [h]; simp) (by
      rw [h]; intro e; exact hn '.' (.inl rfl) (Option.some.inj e ▸ hc)) (by
      rw [h]; intro e; exact hn '/' (.inr rfl) (Option.some.inj e ▸ hc))
  rw [numCell, h1]
  simp [Fine, Anchored, cellJson, nesting, nestingMembers, nestingElements]

theorem fine_row {n : Nat} {cs : List Cell} (g : Str) (h : ∀ c ∈ cs, Fine n c) : Fine (n + 3) (.row cs g) := by
  have := all_fine h
  refine ⟨this.1, ?_⟩
  simp only [cellJson, nesting, nestingMembers, nestingElements]
  omega

theorem fine_stack {n : Nat} {cs : List Cell} (h : ∀ c ∈ cs, Fine n c) : Fine (n + 2) (.stack cs) := by
  have := all_fine h
  refine ⟨this.1, ?_⟩
  simp only [cellJson, nesting, nestingMembers]
  omega

theorem fine_vector {n : Nat} {cs : List Cell} (h2 : 2 ≤ n) (h : ∀ c ∈ cs, Fine n c) : Fine (n + 2) (vectorCell cs) := by
  match cs with
  | [] => exact fine_empty.mono (by omega)
  | [c] => exact (h c List.mem_cons_self).mono (by omega)
  | _ :: _ :: _ => exact fine_stack h

theorem fine_cost (c : Booked.Cost) : Fine 5 (costCell c) := by
  refine fine_row _ fun x hx => ?_
  simp only [List.mem_cons, List.not_mem_nil, or_false] at hx
  rcases hx with rfl | rfl | rfl | rfl | rfl
  · exact fine_aligned _
  · exact fine_aligned _
  · exact fine_num _
  · exact fine_opt _
  · exact fine_opt _

theorem fine_position (p : Position) : Fine 8 (positionCell p) := by
  have h : Fine 5 (.row [numCell p.units, .aligned p.cur] (str% " ")) := by
    refine fine_row _ fun x hx => ?_
    simp only [List.mem_cons, List.not_mem_nil, or_false] at hx
    rcases hx with rfl | rfl
    · exact fine_num _
    · exact fine_aligned _
  unfold positionCell
  cases p.cost with
  | none =>
    refine fine_row _ fun x hx => ?_
    simp only [List.mem_cons, List.not_mem_nil, or_false] at hx
    exact hx ▸ h
  | some c =>
    refine fine_row _ fun x hx => ?_
    simp only [List.mem_cons, List.not_mem_nil, or_false] at hx
    rcases hx with rfl | rfl
    · exact h
    · exact fine_cost c

theorem fine_positions (ps : List Position) : Fine 10 (positionsCell ps) := by
  refine fine_vector (by omega) fun x hx => ?_
  obtain ⟨p, -, rfl⟩ := List.mem_map.1 hx
  exact fine_position p

theorem fine_map {α : Type} {n : Nat} (h2 : 2 ≤ n) (order : List Str → List Str) {f : α → Cell} (hf : ∀ x, Fine n (f x)) (m : AMap Str α) :
    Fine (n + 5) (mapCell order f m) := by
  refine fine_stack fun x hx => ?_
  obtain ⟨k, -, rfl⟩ := List.mem_map.1 hx
  refine fine_row _ fun y hy => ?_
  simp only [List.mem_cons, List.not_mem_nil, or_false] at hy
  rcases hy with rfl | rfl
  · exact (fine_aligned k).mono h2
  · split
    · exact hf _
    · exact fine_empty.mono h2

theorem fine_rollupEntry (e : RollupEntry) : Fine 5 (rollupEntryCell e) := by
  refine fine_row _ fun x hx => ?_
  obtain ⟨o, -, rfl⟩ := List.mem_map.1 hx
  cases o
  · exact fine_empty
  · exact fine_num _

theorem fine_journalEntry (e : JournalEntry) : Fine 13 (journalEntryCell e) := by
  refine fine_row _ fun x hx => ?_
  simp only [List.mem_cons, List.not_mem_nil, or_false] at hx
  rcases hx with rfl | rfl | rfl | rfl | rfl | rfl | rfl | rfl
  · exact (fine_aligned _).mono (by omega)
  · exact (fine_aligned _).mono (by omega)
  · exact (fine_opt _).mono (by omega)
  · exact (fine_opt _).mono (by omega)
  · exact (fine_opt _).mono (by omega)
  · exact (fine_num _).mono (by omega)
  · exact (fine_aligned _).mono (by omega)
  · exact fine_positions _

/-! ### Determining -/

theorem numberCell_inj {s t : Str} (h : numberCell s = numberCell t) : s = t := by
  simp only [numberCell, Cell.anchored.injEq] at h
  exact h.1

theorem numCell_inj {d e : Dec} (h : numCell d = numCell e) : d = e := decText_inj (numberCell_inj h)

theorem optCell_inj {o p : Option Str} (h : optCell o = optCell p) : o = p := by
  cases o <;> cases p <;> simp_all [optCell]

theorem fmtDate_inj {d e : Date} (hd : CalendarDate d) (he : CalendarDate e) (h : Wire.fmtDate d = Wire.fmtDate e) : d = e :=
  (code_date d e [] [] hd he trivial trivial (by rw [h])).1

theorem costCell_inj {c d : Booked.Cost} (hc : CalendarDate c.date) (hd : CalendarDate d.date) (h : costCell c = costCell d) :
    SameShownCost c d := by
  simp only [costCell, Cell.row.injEq, List.cons.injEq, Cell.aligned.injEq, and_true] at h
  refine ⟨fmtDate_inj hc hd h.1, h.2.1, numCell_inj h.2.2.1, optCell_inj h.2.2.2.1, ?_⟩
  have := optCell_inj h.2.2.2.2
  cases hm : c.merge <;> cases hn : d.merge <;> simp_all

theorem positionCell_inj {p q : Position} (hp : ∀ c ∈ p.cost, CalendarDate c.date) (hq : ∀ c ∈ q.cost, CalendarDate c.date)
    (h : positionCell p = positionCell q) : SameShown p q := by
  unfold positionCell at h
  cases h1 : p.cost with
  | none =>
    cases h2 : q.cost with
    | none =>
      rw [h1, h2] at h
      simp only [Cell.row.injEq, List.cons.injEq, Cell.aligned.injEq, and_true] at h
      refine ⟨numCell_inj h.1, h.2, ?_⟩
      rw [h1, h2]
      exact .none
    | some d =>
      rw [h1, h2] at h
      simp at h
  | some c =>
    cases h2 : q.cost with
    | none =>
      rw [h1, h2] at h
      simp at h
    | some d =>
      rw [h1, h2] at h
      simp only [Cell.row.injEq, List.cons.injEq, Cell.aligned.injEq, and_true] at h
      refine ⟨numCell_inj h.1.1, h.1.2, ?_⟩
      rw [h1, h2]
      exact .some (costCell_inj (hp c h1) (hq d h2) h.2)

theorem vectorCell_inj {cs ds : List Cell} (hc : ∀ c ∈ cs, ∃ l g, c = .row l g) (hd : ∀ c ∈ ds, ∃ l g, c = .row l g)
    (h : vectorCell cs = vectorCell ds) : cs = ds := by
  match cs, ds with
  | [], [] => rfl
  | [], [d] => obtain ⟨l, g, rfl⟩ := hd d List.mem_cons_self; simp [vectorCell] at h
  | [], _ :: _ :: _ => simp [vectorCell] at h
  | [c], [] => obtain ⟨l, g, rfl⟩ := hc c List.mem_cons_self; simp [vectorCell] at h
  | [c], [d] => simp only [vectorCell] at h; rw [h]
  | [c], _ :: _ :: _ => obtain ⟨l, g, rfl⟩ := hc c List.mem_cons_self; simp [vectorCell] at h
  | _ :: _ :: _, [] => simp [vectorCell] at h
  | _ :: _ :: _, [d] => obtain ⟨l, g, rfl⟩ := hd d List.mem_cons_self; simp [vectorCell] at h
  | _ :: _ :: _, _ :: _ :: _ => simpa [vectorCell] using h

theorem forall₂_of_map_eq {α β γ : Type} {f : α → γ} {g : β → γ} {R : α → β → Prop} :
    ∀ {l : List α} {k : List β}, (∀ a ∈ l, ∀ b ∈ k, f a = g b → R a b) → l.map f = k.map g → List.Forall₂ R l k
  | [], [], _, _ => .nil
  | [], _ :: _, _, h => by simp at h
  | _ :: _, [], _, h => by simp at h
  | a :: l, b :: k, hr, h => by
    simp only [List.map_cons, List.cons.injEq] at h
    exact .cons (hr a List.mem_cons_self b List.mem_cons_self h.1)
      (forall₂_of_map_eq (fun x hx y hy => hr x (List.mem_cons_of_mem _ hx) y (List.mem_cons_of_mem _ hy)) h.2)

theorem positionCell_row (p : Position) : ∃ l g, positionCell p = .row l g := by
  unfold positionCell
  cases p.cost
  · exact ⟨_, _, rfl⟩
  · exact ⟨_, _, rfl⟩

theorem positionsCell_inj {ps qs : List Position} (hp : DatedPositions ps) (hq : DatedPositions qs)
    (h : positionsCell ps = positionsCell qs) : List.Forall₂ SameShown ps qs := by
  have := vectorCell_inj (fun c hc => by obtain ⟨p, -, rfl⟩ := List.mem_map.1 hc; exact positionCell_row p)
    (fun c hc => by obtain ⟨p, -, rfl⟩ := List.mem_map.1 hc; exact positionCell_row p) h
  exact forall₂_of_map_eq (fun p hp' q hq' => positionCell_inj (hp p hp') (hq q hq')) this

theorem keyed_map_eq {α : Type} {f g : Str → α} : ∀ {l k : List Str} , l.map (fun x => (x, f x)) = k.map (fun x => (x, g x)) → l = k ∧ ∀ x ∈ l, f x = g x
  | [], [], _ => ⟨rfl, by simp⟩
  | [], _ :: _, h => by simp at h
  | _ :: _, [], h => by simp at h
  | a :: l, b :: k, h => by
    simp only [List.map_cons, List.cons.injEq, Prod.mk.injEq] at h
    obtain ⟨⟨rfl, h1⟩, h2⟩ := h
    obtain ⟨rfl, h3⟩ := keyed_map_eq h2
    exact ⟨rfl, by simpa using ⟨h1, h3⟩⟩

theorem mapCell_inj {α : Type} {order order' : List Str → List Str} (ho : KeyOrder order) (ho' : KeyOrder order') {f : α → Cell}
    {m n : AMap Str α} (h : mapCell order f m = mapCell order' f n) (k : Str) : (m.get k).map f = (n.get k).map f := by
  simp only [mapCell, Cell.stack.injEq] at h
  have h' := congrArg (List.map fun c : Cell => match c with | .row [.aligned k, x] _ => (k, x) | x => ([], x)) h
  rw [List.map_map, List.map_map] at h'
  obtain ⟨h1, h2⟩ := keyed_map_eq (f := fun k => match m.get k with | some x => f x | none => .empty)
    (g := fun k => match n.get k with | some x => f x | none => .empty) h'
  have hm : ∀ k, k ∈ m.keys ↔ k ∈ n.keys := fun k => by
    rw [← (ho m.keys).mem_iff, ← mem_sortBy (cmp := cmpStr), h1, mem_sortBy, (ho' n.keys).mem_iff]
  by_cases hk : k ∈ m.keys
  · have h3 := h2 k (by rw [mem_sortBy, (ho m.keys).mem_iff]; exact hk)
    obtain ⟨v, hv⟩ := (AMap.mem_keys_iff _ _).1 hk
    obtain ⟨w, hw⟩ := (AMap.mem_keys_iff _ _).1 ((hm k).1 hk)
    simp only [hv, hw] at h3
    rw [hv, hw, Option.map_some, Option.map_some, h3]
  · rw [(AMap.get_eq_none_iff _ _).2 hk, (AMap.get_eq_none_iff _ _).2 fun h => hk ((hm k).2 h)]

theorem mapCell_order {α : Type} {order order' : List Str → List Str} (ho : KeyOrder order) (ho' : KeyOrder order') {f : α → Cell}
    {m : AMap Str α} (hm : m.keys.Nodup) : mapCell order f m = mapCell order' f m := by
  unfold mapCell
  rw [sortBy_eq_of_mem_iff cmpStr_total ((ho _).nodup_iff.2 hm) ((ho' _).nodup_iff.2 hm)
    fun a => by rw [(ho _).mem_iff, (ho' _).mem_iff]]

theorem rollupEntryCell_inj {e f : RollupEntry} (h : rollupEntryCell e = rollupEntryCell f) : entryCells e = entryCells f := by
  simp only [rollupEntryCell, Cell.row.injEq, and_true] at h
  refine List.map_injective_iff.2 ?_ h
  intro a b hab
  cases a <;> cases b <;> simp_all [numCell, numberCell]
  exact decText_inj hab.1

theorem journalEntryCell_inj {e f : JournalEntry} (he : CalendarDate e.row.date) (hf : CalendarDate f.row.date)
    (hb : DatedPositions e.bal) (hb' : DatedPositions f.bal) (h : journalEntryCell e = journalEntryCell f) : SameShownEntry e f := by
  simp only [journalEntryCell, Cell.row.injEq, List.cons.injEq, Cell.aligned.injEq, and_true] at h
  obtain ⟨h1, h2, h3, h4, h5, h6, h7, h8⟩ := h
  exact ⟨fmtDate_inj he hf h1, h2, optCell_inj h3, optCell_inj h4, optCell_inj h5, numCell_inj h6, h7, positionsCell_inj hb hb' h8⟩

end Clj
end Limabean
