/-
C89: the text of a whole ledger determines it, also after booking.
-/
import Verif.Proofs.PrintLemmas
import Verif.Props.Examples

namespace Limabean

open Spec Clj

namespace Clj

/-- What follows the first directive in the text of a ledger. -/
def laterText (txt : Data → Str) : List Data → Str
  | [] => []
  | l => '\n' :: ledgerText txt l

theorem ledgerText_cons (txt : Data → Str) (d : Data) (l : List Data) : ledgerText txt (d :: l) = directiveText txt d ++ laterText txt l := by
  cases l with
  | nil => simp [ledgerText, interposed, laterText]
  | cons a l => simp [ledgerText, interposed, laterText]

theorem laterText_unindented (txt : Data → Str) (l : List Data) : Unindented (laterText txt l) := by
  intro s e
  cases l with
  | nil => cases e
  | cons a l =>
    simp only [laterText, List.cons.injEq] at e
    exact absurd e.1 (by decide)

theorem directiveText_ne_nil {ord : List Data → List Data} (ho : Rearranges ord) (txt : Data → Str) {d : Raw.Directive} (hd : Writable d) :
    directiveText txt (ofDirective ord d) ≠ [] := by
  rw [directiveText_eq ho txt hd]
  simp

theorem ledger_same {ord ord' : List Data → List Data} (ho : Rearranges ord) (ho' : Rearranges ord') (txt : Data → Str)
    {l l' : List Raw.Directive} (hl : ∀ d ∈ l, Writable d) (hl' : ∀ d ∈ l', Writable d)
    (e : ledgerText txt (l.map (ofDirective ord)) = ledgerText txt (l'.map (ofDirective ord'))) : List.Forall₂ SameDirective l l' := by
  induction l generalizing l' with
  | nil =>
    cases l' with
    | nil => exact .nil
    | cons d' l' =>
      rw [List.map_cons, ledgerText_cons] at e
      exact absurd (List.append_eq_nil_iff.1 e.symm).1 (directiveText_ne_nil ho' txt (hl' d' (by simp)))
  | cons d l ih =>
    cases l' with
    | nil =>
      rw [List.map_cons, ledgerText_cons] at e
      exact absurd (List.append_eq_nil_iff.1 e).1 (directiveText_ne_nil ho txt (hl d (by simp)))
    | cons d' l' =>
      rw [List.map_cons, List.map_cons, ledgerText_cons, ledgerText_cons] at e
      obtain ⟨h1, h2⟩ := directive_after ho ho' txt (hl d (by simp)) (hl' d' (by simp)) (laterText_unindented txt _) (laterText_unindented txt _) e
      refine .cons h1 (ih (fun x hx => hl x (by simp [hx])) (fun x hx => hl' x (by simp [hx])) ?_)
      cases l with
      | nil =>
        cases l' with
        | nil => rfl
        | cons a l' => cases h2
      | cons a l =>
        cases l' with
        | nil => cases h2
        | cons a' l' => exact (List.cons.inj h2).2

theorem same_of_costWritten {c c' : Option Booked.Cost} (h : c.map costWritten = c'.map costWritten) : BothOrNone CostAlike c c' := by
  cases c <;> cases c' <;> simp [costWritten, BothOrNone, CostAlike] at h ⊢
  exact ⟨h.2.2.1, h.1, h.2.1, h.2.2.2.1, h.2.2.2.2⟩

theorem same_of_priceWritten {p p' : Option Booked.Price} (h : p.map priceWritten = p'.map priceWritten) : BothOrNone PriceAlike p p' := by
  cases p <;> cases p' <;> simp [priceWritten, BothOrNone, PriceAlike] at h ⊢
  exact h

theorem same_of_written {d d' : Booked.Directive} (h : SameDirective (asWritten d) (asWritten d')) : SameBooked d d' := by
  obtain ⟨h1, h2, h3, h4, h5⟩ := h
  refine ⟨h1, h2, h3, h4, ?_⟩
  have h5 : SameVariant (variantWritten d.variant) (variantWritten d'.variant) := h5
  cases hv : d.variant <;> cases hv' : d'.variant <;> rw [hv, hv'] at h5 <;>
    simp only [variantWritten, SameVariant, reduceCtorEq, SameBookedVariant] at h5 ⊢ <;>
    first
    | exact h5
    | (cases h5; rfl)
    | skip
  · refine ⟨h5.1, h5.2.1, h5.2.2.1, ?_⟩
    have h6 := h5.2.2.2
    rw [List.forall₂_map_left_iff, List.forall₂_map_right_iff] at h6
    refine h6.imp fun p q h => ?_
    obtain ⟨a1, a2, a3, a4, a5, a6, a7, a8, a9⟩ := h
    simp only [postingWritten, Option.some.injEq] at a1 a2 a3 a4 a5 a6 a7 a8 a9
    exact ⟨a1, a2, a3, a4, same_of_costWritten a5, same_of_priceWritten a6, a7, a8, a9⟩
  · injection h5

end Clj

/-- C89: ledgers of which equal texts are printed have the same directives in the same order, apart from their spans and the order
within sets and maps, on the conditions of C52. -/
theorem C89_ledger_partial {ord ord' : List Data → List Data} (ho : ∀ l, (ord l).Perm l) (ho' : ∀ l, (ord' l).Perm l) (txt : Data → Str)
    {l l' : List Raw.Directive} (hl : ∀ d ∈ l, Writable d) (hl' : ∀ d ∈ l', Writable d)
    (e : ledgerText txt (l.map (ofDirective ord)) = ledgerText txt (l'.map (ofDirective ord'))) : List.Forall₂ SameDirective l l' :=
  ledger_same ho ho' txt hl hl' e

/-- A booked directive is printed as one would write it into a beanfile, whatever spans and provenance the loader gave it. -/
theorem C89_written (txt : Data → Str) (ord : List Data → List Data) (raw : Data) (d : Booked.Directive) :
    directiveText txt (resolveDirective raw (ofBooked ord d)) = directiveText txt (ofDirective ord (asWritten d)) := by
  rw [← booked_text]
  refine resolved_text txt raw _ fun p hp => ?_
  obtain ⟨idx, date, tags, links, metadata, v⟩ := d
  cases v <;> simp [ofBookedVariant, ofVariant, Data.get, get_append, get_optEntry, AMap.get, Data.elems] at hp
  obtain ⟨q, -, rfl⟩ := hp
  exact ⟨_, rfl⟩

/-- C89: booked ledgers of which equal texts are printed have the same directives in the same order, apart from indices, spans,
totals, what booking noted on balances, and the order within sets and maps, on the conditions of C52. -/
theorem C89_booked_partial {ord ord' : List Data → List Data} (ho : ∀ l, (ord l).Perm l) (ho' : ∀ l, (ord' l).Perm l) (txt : Data → Str)
    (raw raw' : Data) {l l' : List Booked.Directive} (hl : ∀ d ∈ l, Writable (asWritten d)) (hl' : ∀ d ∈ l', Writable (asWritten d))
    (e : ledgerText txt (resolveDirectives (.vec (l.map (ofBooked ord))) raw).elems =
      ledgerText txt (resolveDirectives (.vec (l'.map (ofBooked ord'))) raw').elems) : List.Forall₂ SameBooked l l' := by
  have key : ∀ (ord : List Data → List Data) (raw : Data) (l : List Booked.Directive),
      ledgerText txt (resolveDirectives (.vec (l.map (ofBooked ord))) raw).elems = ledgerText txt ((l.map asWritten).map (ofDirective ord)) := by
    intro ord raw l
    unfold ledgerText
    refine congrArg _ ?_
    simp only [resolveDirectives, Data.elems, List.map_map]
    exact List.map_congr_left fun d _ => C89_written txt ord raw d
  rw [key, key] at e
  have h := ledger_same ho ho' txt (fun d hd => by obtain ⟨x, hx, rfl⟩ := List.mem_map.1 hd; exact hl x hx)
    (fun d hd => by obtain ⟨x, hx, rfl⟩ := List.mem_map.1 hd; exact hl' x hx) e
  rw [List.forall₂_map_left_iff, List.forall₂_map_right_iff] at h
  exact h.imp fun _ _ => same_of_written

namespace Ex

/-- A purchase of three units for a total. -/
def boughtFor (total : Dec) : Booked.Directive :=
  { idx := 0, date := Toy.day 1, variant := .transaction { flag := str% "*", postings :=
    [{ acc := bank, units := ⟨3, 0⟩, cur := usd, cost := some { date := Toy.day 1, perUnit := ⟨333, 2⟩, total := total, cur := nzd } },
     { acc := current, units := ⟨-1000, 2⟩, cur := nzd }] } }

end Ex

/-- Of a booked cost the total is not printed: a purchase of three units for 10.00 and one for 9.99 look alike. -/
theorem C89_false_total (txt : Data → Str) (raw : Data) :
    ledgerText txt (resolveDirectives (.vec [ofBooked id (Ex.boughtFor ⟨1000, 2⟩)]) raw).elems =
        ledgerText txt (resolveDirectives (.vec [ofBooked id (Ex.boughtFor ⟨999, 2⟩)]) raw).elems ∧
      Ex.boughtFor ⟨1000, 2⟩ ≠ Ex.boughtFor ⟨999, 2⟩ := by
  refine ⟨?_, by decide⟩
  simp only [resolveDirectives, Data.elems, ledgerText, List.map_cons, List.map_nil, C89_written]
  rfl

namespace Ex

/-- A ledger of two directives, printed. -/
example : ledgerText (fun _ => []) ([written, { date := Toy.day 6, variant := .close { acc := food } }].map (ofDirective id)) =
    directiveText (fun _ => []) (ofDirective id written) ++ str% "\n2010-01-06 close Expenses:Food\n" := by
  decide +kernel

/-- The hypotheses hold of it. -/
example : ∀ d ∈ [written, { date := Toy.day 6, variant := .close { acc := food } }], Writable d := by
  intro d hd
  simp only [List.mem_cons, List.not_mem_nil, or_false] at hd
  rcases hd with rfl | rfl
  · exact written_ok
  · exact ⟨day_ok (by decide), by simp [WritableTags], by simp [WritableTags], by simp [WritableMeta], food_name⟩

/-- What was booked, printed. -/
example : ledgerText (fun _ => []) (resolveDirectives (.vec [ofBooked id (boughtFor ⟨1000, 2⟩)]) .nil).elems =
    str% "2010-01-01 *\n  Assets:Bank 3 USD {3.33 NZD, 2010-01-01}\n  Assets:Bank:Current -10.00 NZD\n" := by
  decide +kernel

/-- The hypotheses hold of a purchase. -/
example : Writable (asWritten (boughtFor ⟨1000, 2⟩)) := by
  refine ⟨day_ok (by decide), by simp [asWritten, boughtFor, WritableTags], by simp [asWritten, boughtFor, WritableTags],
    by simp [asWritten, boughtFor, WritableMeta], ⟨⟨by decide, by decide⟩, by decide, _, _, rfl, by decide, by decide, by decide⟩, by simp, by simp, by simp, ?_⟩
  intro p hp
  simp only [List.map_cons, List.map_nil, List.mem_cons, List.not_mem_nil, or_false] at hp
  rcases hp with rfl | rfl
  · refine ⟨by simp [postingWritten], ⟨⟨by decide, by decide⟩, by decide, _, _, rfl, by decide, by decide⟩, ?_, ?_, by simp [postingWritten],
      by simp [postingWritten, WritableTags], by simp [postingWritten, WritableTags], by simp [postingWritten, WritableMeta]⟩
    · rintro x hx
      cases hx
      exact usd_name
    · rintro x hx
      cases hx
      refine ⟨Or.inr rfl, ?_, ?_, by simp [costWritten]⟩
      · rintro x hx
        cases hx
        exact nzd_name
      · rintro x hx
        cases hx
        exact day_ok (by decide)
  · refine ⟨by simp [postingWritten], current_name, ?_, by simp [postingWritten], by simp [postingWritten],
      by simp [postingWritten, WritableTags], by simp [postingWritten, WritableTags], by simp [postingWritten, WritableMeta]⟩
    rintro x hx
    cases hx
    exact nzd_name

end Ex

end Limabean
