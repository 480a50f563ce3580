/-
C44: decoding the server's JSON into Clojure data preserves the directives and their metadata.

False in general: a metadata value whose key is `dct` or `booking` becomes `nil` (`C44_false`). All else is preserved (`C44_exact`,
`C44_booked_exact`), so the claim holds without these keys (`C44_partial`, `C44_booked_partial`).
-/
import Verif.Proofs.DecodeLemmas
import Verif.Props.Examples

namespace Limabean

open Spec Clj

/-- Metadata have neither of the two keys. -/
def Spec.NotLost (m : Option (List (Str × MetaValue))) : Prop :=
  ∀ l ∈ m, ∀ kv ∈ l, kv.1 ≠ str% "dct" ∧ kv.1 ≠ str% "booking"

/-- Neither the metadata of a directive nor those of its postings have the two keys. -/
def Spec.KeysOk (d : Raw.Directive) : Prop :=
  NotLost d.metadata ∧ ∀ t, d.variant = .transaction t → ∀ p ∈ t.postings, NotLost p.metadata

/-- The same for a booked directive. -/
def Spec.BookedKeysOk (d : Booked.Directive) : Prop :=
  NotLost d.metadata ∧ ∀ t, d.variant = .transaction t → ∀ p ∈ t.postings, NotLost p.metadata

/-- C44, exactly: what the client reads is the directive, but for the values of the metadata keys `dct` and `booking`, which are lost. -/
theorem C44_exact {ord : List Data → List Data} (ho : IsOrder ord) {d : Raw.Directive} (h : DatesOk d) :
    decode ord none (Wire.encDirective d) = some (ofDirective ord (withoutLostMeta d)) := decode_directive ho none h

/-- The same for booked directives. -/
theorem C44_booked_exact {ord : List Data → List Data} (ho : IsOrder ord) {d : Booked.Directive} (h : BookedDatesOk d) :
    decode ord none (Wire.encBookedDirective d) = some (ofBooked ord (withoutLostBooked d)) := decode_booked ho none h

theorem withoutLost_eq {m : Option (List (Str × MetaValue))} (h : NotLost m) : withoutLost m = m := by
  cases m with
  | none => rfl
  | some l =>
    have := h l rfl
    simp only [withoutLost, Option.map_some]
    congr 1
    exact map_same fun p hp => by simp [this p hp]

/-- C44, without the metadata keys `dct` and `booking`: what the client reads is the directive. Missing: these keys, for which it is
false (`C44_false`). -/
theorem C44_partial {ord : List Data → List Data} (ho : IsOrder ord) {d : Raw.Directive} (h : DatesOk d) (hk : KeysOk d) :
    decode ord none (Wire.encDirective d) = some (ofDirective ord d) := by
  rw [C44_exact ho h]
  suffices e : withoutLostMeta d = d by rw [e]
  obtain ⟨span, date, tags, links, metadata, v⟩ := d
  obtain ⟨h1, h2⟩ := hk
  simp only [withoutLostMeta, withoutLost_eq h1]
  congr 1
  cases v <;> try rfl
  rename_i t
  simp only
  rw [map_same fun p hp => by rw [withoutLost_eq (h2 t rfl p hp)]]

/-- The same for booked directives. -/
theorem C44_booked_partial {ord : List Data → List Data} (ho : IsOrder ord) {d : Booked.Directive} (h : BookedDatesOk d)
    (hk : BookedKeysOk d) : decode ord none (Wire.encBookedDirective d) = some (ofBooked ord d) := by
  rw [C44_booked_exact ho h]
  suffices e : withoutLostBooked d = d by rw [e]
  obtain ⟨idx, date, tags, links, metadata, v⟩ := d
  obtain ⟨h1, h2⟩ := hk
  simp only [withoutLostBooked, withoutLost_eq h1]
  congr 1
  cases v <;> try rfl
  rename_i t
  simp only
  rw [map_same fun p hp => by rw [withoutLost_eq (h2 t rfl p hp)]]

/-- The user's metadata `booking: "ref 17"` on a directive. -/
def Ex.trip : Raw.Directive :=
  { date := Toy.day 5, metadata := some [(str% "booking", .string (str% "ref 17"))], variant := .commodity { cur := Ex.nzd } }

/-- C44 is false: the value of metadata with the key `booking` does not reach the client. -/
theorem C44_false : DatesOk Ex.trip ∧
    (decode id none (Wire.encDirective Ex.trip)).map (fun x => ((x.get (str% "metadata")).has (str% "booking"),
      (x.get (str% "metadata")).get (str% "booking"))) = some (true, .nil) := by
  constructor
  · refine ⟨Wire.validDate_iff.1 (by decide +kernel), ?_, trivial⟩
    intro l hl
    cases hl
    simp
  · rfl

/-- A transaction with metadata, tags, a cost specification with a date and a span. -/
example : DatesOk { Ex.lunch with metadata := some [(str% "date", .date (Toy.day 1))] } ∧
    KeysOk { Ex.lunch with metadata := some [(str% "date", .date (Toy.day 1))] } := by
  refine ⟨⟨Wire.validDate_iff.1 (by decide +kernel), ?_, ?_⟩, ?_, ?_⟩
  · intro l hl
    cases hl
    simp only [List.map_cons, List.map_nil, List.nodup_cons, List.not_mem_nil, not_false_eq_true, List.nodup_nil, and_self,
      List.mem_cons, or_false, forall_eq, MetaValue.date.injEq, true_and, forall_eq']
    exact Wire.validDate_iff.1 (by decide +kernel)
  · simp only [Ex.lunch]
    intro p hp
    simp only [List.mem_cons, List.not_mem_nil, or_false] at hp
    rcases hp with rfl | rfl <;> refine ⟨?_, ?_⟩ <;> simp [MetadataOk]
  · intro l hl
    cases hl
    decide +kernel
  · rintro t ⟨⟩ p hp
    simp only [List.mem_cons, List.not_mem_nil, or_false] at hp
    rcases hp with rfl | rfl <;> simp [NotLost]

end Limabean
