/-
C52: the text of a directive determines it.
-/
import Verif.Proofs.FormatLemmas
import Verif.Props.Examples

namespace Limabean

open Spec Clj

namespace Clj

theorem postOf_ok {ord : List Data → List Data} (h : Rearranges ord) {p : Raw.PostingSpec} (hp : WritablePosting p) : PostOk (postOf ord p) := by
  obtain ⟨h1, h2, h3, h4, h5, h6, h7, h8⟩ := hp
  refine ⟨⟨h1, h2⟩, ⟨fun _ _ => trivial, h3, h4, h5⟩, ?_, ?_, ?_⟩
  · exact fun t ht => tag_of_listed h h6 ht
  · exact fun t ht => tag_of_listed h h7 ht
  · exact fun kv hk => meta_of_sorted h8 hk
where
  tag_of_listed {ord : List Data → List Data} (h : Rearranges ord) {o : Option (List Str)} (ho : WritableTags o) {t : Str}
      (ht : t ∈ listed ord o) : TagName t := by
    rw [mem_listed h] at ht
    cases o with
    | none => cases ht
    | some l => exact ho l rfl t ht
  meta_of_sorted {o : Option (List (Str × MetaValue))} (ho : WritableMeta o) {kv : Str × MetaValue} (hk : kv ∈ sorted o) :
      KeyName kv.1 ∧ WritableValue kv.2 := by
    rw [mem_sorted fun l hl => (ho l hl).1] at hk
    cases o with
    | none => cases hk
    | some l => exact (ho l rfl).2 kv hk

theorem restOf_ok {ord : List Data → List Data} (h : Rearranges ord) {d : Raw.Directive} (hd : Writable d) : RestOk (restOf ord d) := by
  obtain ⟨-, h1, h2, h3, h4⟩ := hd
  refine ⟨fun t ht => postOf_ok.tag_of_listed h h1 ht, fun t ht => postOf_ok.tag_of_listed h h2 ht,
    fun kv hk => postOf_ok.meta_of_sorted h3 hk, fun p hp => ?_⟩
  cases hv : d.variant <;> simp only [restOf, hv, List.not_mem_nil] at hp
  obtain ⟨q, hq, rfl⟩ := List.mem_map.1 hp
  rw [hv] at h4
  exact postOf_ok h (h4.2.2.2.2 q hq)

theorem same_listed {ord ord' : List Data → List Data} (h : Rearranges ord) (h' : Rearranges ord') {o o' : Option (List Str)}
    (e : listed ord o = listed ord' o') : SameElements o o' := fun t => by
  rw [← mem_listed h, ← mem_listed h', e]

theorem same_sorted {o o' : Option (List (Str × MetaValue))} (h : WritableMeta o) (h' : WritableMeta o') (e : sorted o = sorted o') :
    SameElements o o' := fun t => by
  rw [← mem_sorted fun l hl => (h l hl).1, ← mem_sorted fun l hl => (h' l hl).1, e]

theorem same_posts {ord ord' : List Data → List Data} (h : Rearranges ord) (h' : Rearranges ord') {l l' : List Raw.PostingSpec}
    (hl : ∀ p ∈ l, WritablePosting p) (hl' : ∀ p ∈ l', WritablePosting p) (e : l.map (postOf ord) = l'.map (postOf ord')) :
    List.Forall₂ SamePosting l l' := by
  induction l generalizing l' with
  | nil =>
    cases l' with
    | nil => exact .nil
    | cons q l' => cases e
  | cons p l ih =>
    cases l' with
    | nil => cases e
    | cons q l' =>
      simp only [List.map_cons, List.cons.injEq] at e
      refine .cons ?_ (ih (fun x hx => hl x (by simp [hx])) (fun x hx => hl' x (by simp [hx])) e.2)
      have e1 := e.1
      simp only [postOf, Prod.mk.injEq] at e1
      obtain ⟨⟨a1, a2⟩, ⟨a3, a4, a5, a6⟩, a7, a8, a9⟩ := e1
      exact ⟨a1, a2, a3, a4, a5, a6, same_listed h h' a7, same_listed h h' a8,
        same_sorted (hl p (by simp)).2.2.2.2.2.2.2 (hl' q (by simp)).2.2.2.2.2.2.2 a9⟩

/-- Where the text of a directive ends is seen from the text. -/
theorem directive_after {ord ord' : List Data → List Data} (ho : Rearranges ord) (ho' : Rearranges ord') (txt : Data → Str)
    {d d' : Raw.Directive} (hd : Writable d) (hd' : Writable d') {r r' : Str} (hr : Unindented r) (hr' : Unindented r')
    (e : directiveText txt (ofDirective ord d) ++ r = directiveText txt (ofDirective ord' d') ++ r') : SameDirective d d' ∧ r = r' := by
  rw [directiveText_eq ho txt hd, directiveText_eq ho' txt hd'] at e
  simp only [List.append_assoc] at e
  obtain ⟨edate, e1⟩ := code_date _ _ _ _ hd.1 hd'.1 trivial trivial e
  rw [List.append_cancel_left_eq] at e1
  obtain ⟨ef, er⟩ := fields_after hd.2.2.2.2 hd'.2.2.2.2 (rest_after (restOf ord d) r) (rest_after (restOf ord' d') r') e1
  obtain ⟨ex, err⟩ := code_rest (restOf ord d) (restOf ord' d') r r' (restOf_ok ho hd) (restOf_ok ho' hd') hr hr' er
  obtain ⟨-, -, -, hm, hv⟩ := hd
  obtain ⟨-, -, -, hm', hv'⟩ := hd'
  simp only [restOf, Prod.mk.injEq] at ex
  obtain ⟨x1, x2, x3, x4⟩ := ex
  refine ⟨⟨edate, same_listed ho ho' x1, same_listed ho ho' x2, same_sorted hm hm' x3, ?_⟩, err⟩
  cases hk : d.variant <;> cases hk' : d'.variant <;> rw [hk, hk'] at ef <;> first
    | exact ef
    | (cases ef; done)
    | skip
  rename_i t t'
  rw [hk] at x4 hv
  rw [hk'] at x4 hv'
  obtain ⟨a1, a2, a3⟩ := ef
  exact ⟨a1, a2, a3, same_posts ho ho' hv.2.2.2.2 hv'.2.2.2.2 x4⟩

end Clj

/-- C52: directives of which equal texts are printed are equal, apart from their spans and the order within sets and maps, if their
names look like names in beanfiles do, their texts have no double quotes, costs and prices are not given both per unit and in total,
a payee comes with a narration, and they are no custom directives. The sets may be iterated over in any order. -/
theorem C52_partial {ord ord' : List Data → List Data} (ho : ∀ l, (ord l).Perm l) (ho' : ∀ l, (ord' l).Perm l) (txt : Data → Str)
    {d d' : Raw.Directive} (hd : Writable d) (hd' : Writable d')
    (e : directiveText txt (ofDirective ord d) = directiveText txt (ofDirective ord' d')) : SameDirective d d' :=
  (directive_after ho ho' txt hd hd' (r := []) (r' := []) (fun s e => by cases e) (fun s e => by cases e) (by rw [e])).1

namespace Ex

/-- An event whose type has quotes in it, as written `"a\" \"b"`. -/
def quotedType : Raw.Directive := { date := Toy.day 1, variant := .event { type_ := str% "a\" \"b", description := str% "c" } }

/-- An event whose description has quotes in it. -/
def quotedText : Raw.Directive := { date := Toy.day 1, variant := .event { type_ := str% "a", description := str% "b\" \"c" } }

/-- A purchase at a cost per unit and in total. -/
def costBoth (total : Option Dec) : Raw.Directive :=
  { date := Toy.day 1, variant := .transaction { flag := str% "*", postings :=
    [{ acc := bank, units := some ⟨3, 0⟩, cur := some usd, costSpec := some { perUnit := some ⟨2, 0⟩, total := total, cur := some nzd } }] } }

/-- A transaction with a payee. -/
def paid (narration : Option Str) : Raw.Directive :=
  { date := Toy.day 1, variant := .transaction { flag := str% "*", payee := some (str% "Cafe"), narration := narration, postings := [] } }

/-- Custom directives with an amount, and with a number and a currency. -/
def customs (l : List MetaValue) : Raw.Directive := { date := Toy.day 1, variant := .custom { type_ := str% "budget", values := l } }

end Ex

/-- Without the conditions C52 is false: quotes are not escaped. -/
theorem C52_false (ord : List Data → List Data) (txt : Data → Str) :
    directiveText txt (ofDirective ord Ex.quotedType) = directiveText txt (ofDirective ord Ex.quotedText) ∧
      ¬ SameDirective Ex.quotedType Ex.quotedText :=
  ⟨rfl, fun h => absurd h.2.2.2.2 (by simp [Ex.quotedType, Ex.quotedText, SameVariant])⟩

/-- Of a cost per unit and in total, only the former is printed. -/
theorem C52_false_cost (ord : List Data → List Data) (txt : Data → Str) :
    directiveText txt (ofDirective ord (Ex.costBoth (some ⟨5, 0⟩))) = directiveText txt (ofDirective ord (Ex.costBoth none)) ∧
      ¬ SameDirective (Ex.costBoth (some ⟨5, 0⟩)) (Ex.costBoth none) :=
  ⟨rfl, fun h => by
    obtain ⟨-, -, -, h⟩ := h.2.2.2.2
    cases h with
    | cons h _ => exact absurd h.2.2.2.2.1 (by decide)⟩

/-- No narration is printed as an empty one, if there is a payee. -/
theorem C52_false_narration (ord : List Data → List Data) (txt : Data → Str) :
    directiveText txt (ofDirective ord (Ex.paid none)) = directiveText txt (ofDirective ord (Ex.paid (some []))) ∧
      ¬ SameDirective (Ex.paid none) (Ex.paid (some [])) :=
  ⟨rfl, fun h => absurd h.2.2.2.2.2.2.1 (by decide)⟩

/-- The values of a custom directive run together. -/
theorem C52_false_custom (ord : List Data → List Data) (txt : Data → Str) :
    directiveText txt (ofDirective ord (Ex.customs [.amount ⟨5, 0⟩ (str% "NZD")])) =
        directiveText txt (ofDirective ord (Ex.customs [.number ⟨5, 0⟩, .currency (str% "NZD")])) ∧
      ¬ SameDirective (Ex.customs [.amount ⟨5, 0⟩ (str% "NZD")]) (Ex.customs [.number ⟨5, 0⟩, .currency (str% "NZD")]) :=
  ⟨rfl, fun h => absurd h.2.2.2.2 (by simp [Ex.customs, SameVariant])⟩

namespace Ex

/-- A directive of many parts. -/
def written : Raw.Directive :=
  { date := Toy.day 5, tags := some [str% "lunch", str% "out"], links := some [str% "inv-1"]
    metadata := some [(str% "ref", .string (str% "7")), (str% "aaa", .null)]
    variant := .transaction { flag := str% "*", payee := some (str% "Cafe"), narration := some (str% "Lunch"), postings :=
      [{ flag := some (str% "#"), acc := current, units := some ⟨-1250, 2⟩, cur := some nzd,
         costSpec := some { date := some (Toy.day 2), merge := true }, priceSpec := some { total := some ⟨2, 0⟩, cur := some usd }
         tags := some [str% "t"], metadata := some [(str% "k", .bool true), (str% "n", .amount ⟨1, 1⟩ nzd)] },
       { acc := food }] } }

theorem current_name : AccountName current := ⟨⟨by decide, by decide⟩, by decide, _, _, rfl, by decide, by decide⟩

theorem food_name : AccountName food := ⟨⟨by decide, by decide⟩, by decide, _, _, rfl, by decide, by decide⟩

theorem nzd_name : CurrencyName nzd := ⟨⟨by decide, by decide⟩, by decide, by decide, by decide, ⟨_, _, rfl, by decide⟩, by decide, by decide⟩

theorem usd_name : CurrencyName usd := ⟨⟨by decide, by decide⟩, by decide, by decide, by decide, ⟨_, _, rfl, by decide⟩, by decide, by decide⟩

theorem day_ok {n : Nat} (h : 1 ≤ n ∧ n ≤ 28) : CalendarDate (Toy.day n) := by
  have : ∀ n, n < 29 → 1 ≤ n → Wire.validDate (Toy.day n) = true := by decide +kernel
  exact Wire.validDate_iff.1 (this n (by omega) h.1)

/-- The hypotheses hold of it. -/
theorem written_ok : Writable written := by
  refine ⟨day_ok (by decide), ?_, ?_, ?_, ⟨⟨by decide, by decide⟩, by decide, _, _, rfl, by decide, by decide, by decide⟩, ?_, ?_, by simp, ?_⟩
  · rintro l hl t ht
    cases hl
    simp only [List.mem_cons, List.not_mem_nil, or_false] at ht
    rcases ht with rfl | rfl <;> exact ⟨⟨by decide, by decide⟩, by decide⟩
  · rintro l hl t ht
    cases hl
    simp only [List.mem_cons, List.not_mem_nil, or_false] at ht
    subst ht
    exact ⟨⟨by decide, by decide⟩, by decide⟩
  · rintro l hl
    cases hl
    refine ⟨by decide, fun kv hk => ?_⟩
    simp only [List.mem_cons, List.not_mem_nil, or_false] at hk
    rcases hk with rfl | rfl
    · exact ⟨⟨⟨by decide, by decide⟩, by decide, _, _, rfl, by decide⟩, (by decide : '"' ∉ str% "7")⟩
    · exact ⟨⟨⟨by decide, by decide⟩, by decide, _, _, rfl, by decide⟩, trivial⟩
  · rintro x hx
    cases hx
    exact (by decide : '"' ∉ str% "Cafe")
  · rintro x hx
    cases hx
    exact (by decide : '"' ∉ str% "Lunch")
  · intro p hp
    simp only [List.mem_cons, List.not_mem_nil, or_false] at hp
    rcases hp with rfl | rfl
    · refine ⟨?_, current_name, ?_, ?_, ?_, ?_, ?_, ?_⟩
      · rintro x hx
        cases hx
        exact ⟨⟨by decide, by decide⟩, by decide, _, _, rfl, by decide, by decide, by decide⟩
      · rintro x hx
        cases hx
        exact nzd_name
      · rintro x hx
        cases hx
        exact ⟨Or.inl rfl, by simp, by rintro x hx; cases hx; exact day_ok (by decide), by simp⟩
      · rintro x hx
        cases hx
        exact ⟨Or.inl rfl, by rintro x hx; cases hx; exact usd_name⟩
      · rintro l hl t ht
        cases hl
        simp only [List.mem_cons, List.not_mem_nil, or_false] at ht
        subst ht
        exact ⟨⟨by decide, by decide⟩, by decide⟩
      · simp [WritableTags]
      · rintro l hl
        cases hl
        refine ⟨by decide, fun kv hk => ?_⟩
        simp only [List.mem_cons, List.not_mem_nil, or_false] at hk
        rcases hk with rfl | rfl
        · exact ⟨⟨⟨by decide, by decide⟩, by decide, _, _, rfl, by decide⟩, trivial⟩
        · exact ⟨⟨⟨by decide, by decide⟩, by decide, _, _, rfl, by decide⟩, nzd_name⟩
    · exact ⟨by simp, food_name, by simp, by simp, by simp, by simp [WritableTags], by simp [WritableTags], by simp [WritableMeta]⟩

/-- Its text. -/
example : directiveText (fun _ => []) (ofDirective id written) =
    str% "2010-01-05 * \"Cafe\" \"Lunch\" #lunch #out ^inv-1\n  aaa:\n  ref: \"7\"\n  # Assets:Bank:Current -12.50 NZD {2010-01-02, *} @ # 2 USD\n  #t\n  k: TRUE\n  n: 0.1 NZD\n  Expenses:Food\n" := by
  decide +kernel

end Ex

end Limabean
