/-
C57: a directive which the client read from the server and sends back unchanged for booking arrives as it was.

False in general: the metadata keys `dct` and `booking` arrive with nothing in place of their values (`C57_false`). All else arrives
(`C57_exact`), so the claim holds without these keys (`C57_partial`). Tags, links, currencies and metadata may arrive in another order.
-/
import Verif.Proofs.RoundTrip
import Verif.Props.C27
import Verif.Props.C44

namespace Limabean

open Spec Clj

theorem metaOk_withoutLost {m : Option (List (Str × MetaValue))} (h : ∀ l ∈ m, EntriesOk l) :
    ∀ l ∈ withoutLost m, EntriesOk l := by
  intro l hl
  simp only [withoutLost, Option.mem_def, Option.map_eq_some_iff] at hl
  obtain ⟨l', h1, rfl⟩ := hl
  obtain ⟨hn, h⟩ := h l' h1
  refine ⟨?_, fun kv hkv => ?_⟩
  · rw [List.map_map]
    convert hn using 2
    funext p
    simp only [Function.comp]
    split <;> rfl
  obtain ⟨kv', h2, rfl⟩ := List.mem_map.1 hkv
  have := h kv' h2
  split
  · exact ⟨this.1, trivial⟩
  · exact this

theorem directiveOk_withoutLost {d : Raw.Directive} (h : DirectiveOk d) : DirectiveOk (withoutLostMeta d) where
  date := h.date
  attached := ⟨h.attached.tags, h.attached.links, metaOk_withoutLost h.attached.metadata⟩
  variant := by
    have hv := h.variant
    simp only [withoutLostMeta]
    cases he : d.variant with
    | transaction t =>
      rw [he] at hv
      intro p hp
      obtain ⟨q, hq, rfl⟩ := List.mem_map.1 hp
      have := hv q hq
      exact ⟨this.acc, this.cur, this.cost, this.price, ⟨this.attached.tags, this.attached.links,
        metaOk_withoutLost this.attached.metadata⟩⟩
    | _ => rw [he] at hv; exact hv

/-- C57, exactly: what the server reads of a directive which the client has read and sends back is the directive, but for the values of the
metadata keys `dct` and `booking`, which are lost, and for the order of sets and maps. -/
theorem C57_exact {ord : List Data → List Data} (hs : IsOrder ord) {ordm : List (Str × Json) → List (Str × Json)} (ho : IsMapOrder ordm)
    {d : Raw.Directive} (h : DirectiveOk d) (h' : DatesOk d) :
    ∃ x d', decode ord none (Wire.encDirective d) = some x ∧ Wire.decDirective (toJson ordm x) = some d' ∧
      ReorderedDirective d' (withoutLostMeta d) :=
  ⟨_, _, C44_exact hs h', decDirective_sent hs ho (directiveOk_withoutLost h), directiveBack_same hs ho (directiveOk_withoutLost h)⟩

/-- C57, without the metadata keys `dct` and `booking`: what the server reads is the directive, but for the order of sets and maps. Missing:
these keys, for which it is false (`C57_false`). -/
theorem C57_partial {ord : List Data → List Data} (hs : IsOrder ord) {ordm : List (Str × Json) → List (Str × Json)} (ho : IsMapOrder ordm)
    {d : Raw.Directive} (h : DirectiveOk d) (h' : DatesOk d) (hk : KeysOk d) :
    ∃ x d', decode ord none (Wire.encDirective d) = some x ∧ Wire.decDirective (toJson ordm x) = some d' ∧ ReorderedDirective d' d :=
  ⟨_, _, C44_partial hs h' hk, decDirective_sent hs ho h, directiveBack_same hs ho h⟩

/-- The user's metadata `booking: "ref 17"` comes back as a key without value. -/
theorem C57_false : DirectiveOk Ex.trip ∧ DatesOk Ex.trip ∧
    ((decode id none (Wire.encDirective Ex.trip)).bind fun x => Wire.decDirective (toJson id x)).map Raw.Directive.metadata =
      some (some [(str% "booking", .null)]) ∧ Ex.trip.metadata = some [(str% "booking", .string (str% "ref 17"))] := by
  refine ⟨⟨C44_false.1.1, ⟨by simp [Ex.trip], by simp [Ex.trip], ?_⟩, ?_⟩, C44_false.1, by decide +kernel, rfl⟩
  · intro l hl
    cases hl
    refine ⟨by decide, ?_⟩
    simp only [List.mem_cons, List.not_mem_nil, or_false, forall_eq, MetaOk, and_true]
    exact Wire.borrowable_iff.1 (by decide +kernel)
  · exact Wire.borrowable_iff.1 (by decide +kernel : Json.borrowable Ex.nzd = true)

/-- Non-vacuity: a transaction with a tag and a posting with metadata. -/
example : DirectiveOk Ex.lunch ∧ DatesOk Ex.lunch ∧ KeysOk Ex.lunch := by
  refine ⟨directiveOk_examples.2, ⟨Wire.validDate_iff.1 (by decide +kernel), by simp [Ex.lunch, MetadataOk], ?_⟩, by simp [Ex.lunch, NotLost], ?_⟩
  · simp only [Ex.lunch]
    intro p hp
    simp only [List.mem_cons, List.not_mem_nil, or_false] at hp
    rcases hp with rfl | rfl <;> refine ⟨?_, ?_⟩ <;> simp [MetadataOk]
  · rintro t ⟨⟩ p hp
    simp only [List.mem_cons, List.not_mem_nil, or_false] at hp
    rcases hp with rfl | rfl <;> simp [NotLost]

/-- The two tags of a directive come back in another order if the client's sets have it. -/
example : ((decode List.reverse none (Wire.encDirective { Ex.lunch with tags := some [str% "a", str% "b"] })).bind fun x =>
    Wire.decDirective (toJson id x)).map Raw.Directive.tags = some (some [str% "b", str% "a"]) := by decide +kernel

end Limabean
