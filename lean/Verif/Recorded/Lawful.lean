/-
The library which replays recorded results meets the contract `BookLib.Lawful`, if the record itself does: so the theorems which assume
the contract apply to the test cases.
-/
import Verif.Recorded.Harness

namespace Limabean
namespace Recorded
open Toy

/-- Whether a record has one result for each posting, and the lots of each result add up. -/
def coherent (table : List (List (Option Span) × List Interpolated)) : Bool :=
  table.all fun e => e.1.length == e.2.length && e.2.all fun i => match i.cost with
    | some ls => ((Dec.sum (ls.map fun l => l.units)).sub i.units).m == 0
    | none => true

theorem replay_ok {table : List (List (Option Span) × List Interpolated)} {d : Date} {ps : List Raw.PostingSpec} {t : Tolerance}
    {inv : Str → Option Pos} {bk : Str → Booking} {r : Bookings Pos} (h : (replay table).book d ps t inv bk = .ok r) :
    (∃ e ∈ table, e.1 = (ps.map fun p => p.span) ∧ r =
      { interpolated := e.2
        updated := (ps.map fun p => p.acc).dedup.map fun a => (a, applyAll (bk a) a ((inv a).getD []) ps e.2) }) ∨
    bookAll d ps t inv bk = .ok r := by
  simp only [replay] at h
  split at h
  · rename_i e he
    left
    refine ⟨e, List.mem_of_find?_eq_some he, by simpa using List.find?_some he, ?_⟩
    cases h
    rfl
  · exact .inr h

/-- The updates of a replayed transaction. -/
def updates (ps : List Raw.PostingSpec) (inv : Str → Option Pos) (bk : Str → Booking) (is : List Interpolated) : List (Str × Pos) :=
  (ps.map fun p => p.acc).dedup.map fun a => (a, applyAll (bk a) a ((inv a).getD []) ps is)

theorem mem_updates {ps : List Raw.PostingSpec} {inv : Str → Option Pos} {bk : Str → Booking} {is : List Interpolated} {a : Str} {q : Pos} :
    (a, q) ∈ updates ps inv bk is ↔ (∃ p ∈ ps, p.acc = a) ∧ q = applyAll (bk a) a ((inv a).getD []) ps is := by
  simp only [updates, List.mem_map, List.mem_dedup, Prod.mk.injEq]
  constructor
  · rintro ⟨a', ⟨p, hp, hpa⟩, rfl, rfl⟩
    exact ⟨⟨p, hp, hpa⟩, rfl⟩
  · rintro ⟨⟨p, hp, hpa⟩, rfl⟩
    exact ⟨a, ⟨p, hp, hpa⟩, rfl, rfl⟩

theorem updates_nodup (ps : List Raw.PostingSpec) (inv : Str → Option Pos) (bk : Str → Booking) (is : List Interpolated) :
    ((updates ps inv bk is).map Prod.fst).Nodup := by
  simp only [updates, List.map_map]
  rw [show (Prod.fst ∘ fun a => (a, applyAll (bk a) a ((inv a).getD []) ps is)) = id from rfl, List.map_id]
  exact List.nodup_dedup _

theorem replay_lawful {table : List (List (Option Span) × List Interpolated)} (hc : coherent table = true) : (replay table).Lawful where
  units_empty := lib_lawful.units_empty
  units_accumulate := lib_lawful.units_accumulate
  book_length := by
    intro d ps t inv bk r h
    rcases replay_ok h with ⟨e, he, hs, rfl⟩ | h
    · have := List.all_eq_true.1 hc e he
      simp only [Bool.and_eq_true, beq_iff_eq] at this
      rw [← this.1, hs, List.length_map]
    · exact lib_lawful.book_length d ps t inv bk r h
  book_accounts := by
    intro d ps t inv bk r h a q hq
    rcases replay_ok h with ⟨e, he, hs, rfl⟩ | h
    · exact (mem_updates.1 hq).1
    · exact lib_lawful.book_accounts d ps t inv bk r h a q hq
  book_nodup := by
    intro d ps t inv bk r h
    rcases replay_ok h with ⟨e, he, hs, rfl⟩ | h
    · exact updates_nodup ps inv bk e.2
    · exact lib_lawful.book_nodup d ps t inv bk r h
  book_updated := by
    intro d ps t inv bk r h a q hq c
    rcases replay_ok h with ⟨e, he, hs, rfl⟩ | h
    · rw [(mem_updates.1 hq).2]
      exact val_applyAll _ _ _ _ _ _
    · exact lib_lawful.book_updated d ps t inv bk r h a q hq c
  book_not_updated := by
    intro d ps t inv bk r h a ha c
    rcases replay_ok h with ⟨e, he, hs, rfl⟩ | h
    · apply postingsChange_other
      intro p hp hpa
      exact ha (applyAll (bk a) a ((inv a).getD []) ps e.2) (mem_updates.2 ⟨⟨p, hp, hpa⟩, rfl⟩)
    · exact lib_lawful.book_not_updated d ps t inv bk r h a ha c
  book_lots := by
    intro d ps t inv bk r h i hi ls hls
    rcases replay_ok h with ⟨e, he, hs, rfl⟩ | h
    · have := List.all_eq_true.1 hc e he
      simp only [Bool.and_eq_true, beq_iff_eq] at this
      have h2 := List.all_eq_true.1 this.2 i hi
      rw [hls] at h2
      simp only [beq_iff_eq] at h2
      have h3 : ((Dec.sum (ls.map fun l => l.units)).sub i.units).val = 0 := by simp [Dec.val, h2]
      rw [Dec.val_sub, Dec.val_sum, List.map_map] at h3
      have := sub_eq_zero.1 h3
      simpa [Function.comp_def] using this
    · exact lib_lawful.book_lots d ps t inv bk r h i hi ls hls
  supported_dflt := lib_lawful.supported_dflt

end Recorded
end Limabean
