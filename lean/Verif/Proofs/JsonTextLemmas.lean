/-
Lemmas on the text of JSON: what is written can be read, on one line.
-/
import Verif.Server.JsonText
import Verif.Props.C85

namespace Limabean
namespace JsonText

open Clj Spec

theorem digit_iff {c : Char} : digit c = true ↔ '0' ≤ c ∧ c ≤ '9' := by
  simp only [digit, Bool.and_eq_true, decide_eq_true_eq]
  rfl

theorem digit_cases {c : Char} (h : digit c = true) :
    c = '0' ∨ c = '1' ∨ c = '2' ∨ c = '3' ∨ c = '4' ∨ c = '5' ∨ c = '6' ∨ c = '7' ∨ c = '8' ∨ c = '9' := by
  simp only [digit, Bool.and_eq_true, decide_eq_true_eq] at h
  obtain ⟨h1, h2⟩ := h
  have hc : c = Char.ofNat c.toNat := (Char.ofNat_toNat c).symm
  generalize c.toNat = n at *
  subst hc
  interval_cases n <;> decide

/-! ### Strings -/

theorem hexValue_hexDigit : ∀ (u : Bool) (k : Nat), k < 16 → hexValue (hexDigit u k) = some k := by decide

theorem escape_ne_nil (u : Bool) (c : Char) : escape u c ≠ [] := by
  unfold escape
  repeat' split
  all_goals simp

theorem readString_escape (u : Bool) (c : Char) (n : Nat) (r : Str) :
    readString (n + 1) (escape u c ++ r) = (readString n r).map fun p => (c :: p.1, p.2) := by
  unfold escape
  by_cases h1 : c = '"'
  · subst h1; rfl
  by_cases h2 : c = '\\'
  · subst h2; rfl
  by_cases h3 : c = '\x08'
  · subst h3; rfl
  by_cases h4 : c = '\x0c'
  · subst h4; rfl
  by_cases h5 : c = '\n'
  · subst h5; rfl
  by_cases h6 : c = '\r'
  · subst h6; rfl
  by_cases h7 : c = '\t'
  · subst h7; rfl
  by_cases h8 : c.toNat < 32
  · simp only [h1, h2, h3, h4, h5, h6, h7, h8, if_true, if_false, List.cons_append, List.nil_append]
    have e1 := hexValue_hexDigit u (c.toNat / 16) (by omega)
    have e2 := hexValue_hexDigit u (c.toNat % 16) (by omega)
    have e0 : hexValue '0' = some 0 := by decide
    have e : readUnicode ('0' :: '0' :: hexDigit u (c.toNat / 16) :: hexDigit u (c.toNat % 16) :: r) = some (c, r) := by
      simp only [readUnicode, hex4, e0, e1, e2]
      have hn : 4096 * 0 + 256 * 0 + 16 * (c.toNat / 16) + c.toNat % 16 = c.toNat := by omega
      rw [hn, if_neg (by omega), if_neg (by omega), Char.ofNat_toNat]
    have e' : readEscape ('u' :: '0' :: '0' :: hexDigit u (c.toNat / 16) :: hexDigit u (c.toNat % 16) :: r) = some (c, r) := e
    have hb : ('\\' : Char) ≠ '"' := by decide
    rw [readString, if_neg hb, if_pos rfl, e']
  · simp only [h1, h2, h3, h4, h5, h6, h7, h8, if_false, List.cons_append, List.nil_append]
    rw [readString, if_neg h1, if_neg h2, if_neg h8]

theorem readString_quoted (u : Bool) (s r : Str) : ∀ n, s.length < n →
    readString n (s.flatMap (escape u) ++ '"' :: r) = some (s, r) := by
  induction s with
  | nil =>
    intro n hn
    obtain ⟨n, rfl⟩ : ∃ k, n = k + 1 := ⟨n - 1, by omega⟩
    rfl
  | cons c s ih =>
    intro n hn
    obtain ⟨n, rfl⟩ : ∃ k, n = k + 1 := ⟨n - 1, by omega⟩
    rw [List.flatMap_cons, List.append_assoc, readString_escape, ih n (by simpa using hn)]
    rfl

theorem flatMap_escape_length (u : Bool) (s : Str) : s.length ≤ (s.flatMap (escape u)).length := by
  induction s with
  | nil => simp
  | cons c s ih =>
    have := List.length_pos_of_ne_nil (escape_ne_nil u c)
    simp only [List.flatMap_cons, List.length_append, List.length_cons]
    omega

theorem readString_quote (u : Bool) (s r : Str) :
    readString ((s.flatMap (escape u) ++ '"' :: r).length + 1) (s.flatMap (escape u) ++ '"' :: r) = some (s, r) := by
  apply readString_quoted
  have := flatMap_escape_length u s
  simp only [List.length_append, List.length_cons]
  omega

/-! ### Numbers -/

/-- Nothing follows which would be taken as part of a number. -/
def Stops (r : Str) : Prop := ∀ c ∈ r.head?, digit c = false ∧ c ≠ '.' ∧ c ≠ 'e' ∧ c ≠ 'E'

theorem takeWhile_digits {w r : Str} (hw : AllDigits w) (hr : ∀ c ∈ r.head?, digit c = false) :
    (w ++ r).takeWhile digit = w ∧ (w ++ r).dropWhile digit = r := by
  induction w with
  | nil =>
    cases r with
    | nil => simp
    | cons c r =>
      have := hr c (by simp)
      simp [this]
  | cons c w ih =>
    have hc : digit c = true := digit_iff.2 (hw c (by simp))
    have := ih (fun x hx => hw x (by simp [hx]))
    simp [hc, this]

/-- No leading zero. -/
def Lead (t : Str) : Prop := ∀ c r, t = '0' :: c :: r → digit c = false

/-- A text of a number without its sign. -/
def body (w f e : Str) : Str := w ++ ((if f = [] then [] else '.' :: f) ++ (if e = [] then [] else 'E' :: '-' :: e))

theorem readNumber_shape {t : Str} {d : Dec} {w f e r : Str} (s : DecShape t d w f e) (hl : Lead (body w f e)) (hr : Stops r) :
    readNumber (t ++ r) = some (d, r) := by
  have hsign : readSign (t ++ r) = ((if d.m < 0 then -1 else 1), body w f e ++ r) := by
    rw [s.text]
    by_cases hm : d.m < 0
    · simp only [hm, if_true, List.cons_append, List.nil_append]
      rfl
    · simp only [hm, if_false, List.nil_append]
      unfold body
      cases hw : w with
      | nil => exact absurd hw s.whole_ne
      | cons c w' =>
        have hc : digit c = true := digit_iff.2 (s.whole c (by simp [hw]))
        rcases digit_cases hc with h | h | h | h | h | h | h | h | h | h <;> subst h <;> rfl
  have hstop : ∀ c ∈ (((if f = [] then [] else '.' :: f) ++ (if e = [] then [] else 'E' :: '-' :: e)) ++ r).head?, digit c = false := by
    intro c hc
    by_cases hf : f = []
    · by_cases he : e = []
      · simp only [hf, he, if_true, List.nil_append] at hc
        exact (hr c hc).1
      · simp [hf, he] at hc
        subst hc
        decide
    · simp [hf] at hc
      subst hc
      decide
  obtain ⟨e1, e2⟩ := takeWhile_digits s.whole hstop
  rw [← List.append_assoc] at e1 e2
  have hlead : ¬ (w = [] ∨ (w.head? = some '0' ∧ w ≠ ['0'])) := by
    rintro (h | ⟨h1, h2⟩)
    · exact s.whole_ne h
    · match w, h1, h2, hl, s.whole with
      | [c], h1, h2, _, _ =>
        simp at h1
        exact h2 (by rw [h1])
      | c :: x :: w', h1, _, hl, hw =>
        simp at h1
        subst h1
        have := hl x _ (by simp [body]; rfl)
        rw [digit_iff.2 (hw x (by simp))] at this
        cases this
  have hstop' : ∀ c ∈ ((if e = [] then [] else 'E' :: '-' :: e) ++ r).head?, digit c = false ∧ c ≠ '.' := by
    intro c hc
    by_cases he : e = []
    · simp only [he, if_true, List.nil_append] at hc
      exact ⟨(hr c hc).1, (hr c hc).2.1⟩
    · simp [he] at hc
      subst hc
      decide
  have hfrac : readFraction (((if f = [] then [] else '.' :: f) ++ (if e = [] then [] else 'E' :: '-' :: e)) ++ r) =
      some (f, (if e = [] then [] else 'E' :: '-' :: e) ++ r) := by
    by_cases hf : f = []
    · simp only [hf, if_true, List.nil_append]
      generalize (if e = [] then [] else 'E' :: '-' :: e) ++ r = x at hstop'
      unfold readFraction
      split
      · exact absurd rfl (hstop' '.' (by simp)).2
      · rfl
    · simp only [hf, if_false, List.cons_append, List.append_assoc]
      obtain ⟨a1, a2⟩ := takeWhile_digits s.frac (fun c hc => (hstop' c hc).1)
      rw [readFraction, a1, a2, if_neg hf]
  have hexp : readExponent ((if e = [] then [] else 'E' :: '-' :: e) ++ r) = some (-(digitsValue e : Int), r) := by
    by_cases he : e = []
    · subst he
      simp only [if_true, List.nil_append]
      cases r with
      | nil => rfl
      | cons c r =>
        have := hr c (by simp)
        simp [readExponent, this.2.2.1, this.2.2.2, digitsValue]
    · simp only [he, if_false, List.cons_append]
      obtain ⟨a1, a2⟩ := takeWhile_digits s.exp (fun c hc => (hr c hc).1)

      simp only [readExponent, readPower, a1, a2, he, if_false]
      simp
  have hval : ∀ l, JsonText.digitsValue l = Spec.digitsValue l := fun l => rfl
  unfold readNumber
  simp only [hsign]
  have e1' : (body w f e ++ r).takeWhile digit = w := e1
  have e2' : (body w f e ++ r).dropWhile digit = _ := e2
  rw [e1', e2', if_neg hlead, hfrac]
  simp only [hexp]
  have hv := s.value
  have hs := s.scale
  rw [hval]
  congr 2
  have hle : -(JsonText.digitsValue e : Int) ≤ (f.length : Int) := by omega
  rw [scaled, if_pos hle]
  obtain ⟨m, k⟩ := d
  simp only [hval] at *
  congr 1
  · rw [hv]
    split <;> omega
  · omega

theorem digits_lead (n : Nat) : ∀ r, digits n = '0' :: r → n = 0 := by
  have h : ∀ fuel n, n < fuel → ∀ r, digitsFuel fuel n = '0' :: r → n = 0 := by
    intro fuel
    induction fuel with
    | zero => intro n hn; omega
    | succ fuel ih =>
      intro n hn r hr
      unfold digitsFuel at hr
      by_cases h10 : n < 10
      · rw [if_pos h10, List.nil_append, List.cons.injEq] at hr
        have := hr.1
        unfold digitChar at this
        interval_cases n <;> revert this <;> decide
      · rw [if_neg h10] at hr
        have hne : digitsFuel fuel (n / 10) ≠ [] := (digitsFuel_facts fuel (n / 10) (by omega)).2.2
        cases hd : digitsFuel fuel (n / 10) with
        | nil => exact absurd hd hne
        | cons c x =>
          rw [hd, List.cons_append, List.cons.injEq] at hr
          rw [hr.1] at hd
          have := ih (n / 10) (by omega) _ hd
          omega
  exact h (n + 1) n (by omega)

theorem digits_zero : digits 0 = ['0'] := rfl

/-- No text of digits has a leading zero. -/
theorem digits_lead' {n : Nat} {c : Char} {r : Str} (h : digits n = '0' :: c :: r) : False := by
  have := digits_lead n _ h
  subst this
  rw [digits_zero] at h
  simp at h

theorem lead_sign {t : Str} {d : Dec} {w f e : Str} (s : DecShape t d w f e) {b : Str} (h : t = (if d.m < 0 then ['-'] else []) ++ b)
    (hb : Lead b) : Lead (body w f e) := by
  have := s.text
  rw [h] at this
  rw [body, ← List.append_cancel_left this]
  exact hb

theorem lead_point (b : Str) : Lead ('0' :: '.' :: b) := by
  intro c r h
  simp only [List.cons.injEq, true_and] at h
  rw [← h.1]
  decide

theorem lead_take {n k : Nat} (x : Char) (hx : digit x = false) (b : Str) : Lead ((digits n).take k ++ x :: b) := by
  intro c r h
  match hd : digits n with
  | [] => exact absurd hd (digits_facts n).2.2
  | [y] =>
    rw [hd] at h
    match k with
    | 0 =>
      simp only [List.take_zero, List.nil_append, List.cons.injEq] at h
      rw [h.1] at hx
      exact absurd hx (by decide)
    | k + 1 =>
      simp only [List.take_succ_cons, List.take_nil, List.cons_append, List.nil_append, List.cons.injEq] at h
      rw [← h.2.1]
      exact hx
  | y :: z :: l =>
    rw [hd] at h
    match k with
    | 0 =>
      simp only [List.take_zero, List.nil_append, List.cons.injEq] at h
      rw [h.1] at hx
      exact absurd hx (by decide)
    | k + 1 =>
      simp only [List.take_succ_cons, List.cons_append, List.cons.injEq] at h
      rw [h.1] at hd
      exact absurd hd (fun h => digits_lead' h)

theorem lead_digits (n : Nat) : Lead (digits n) := fun _ _ h => absurd h (fun h => digits_lead' h)

theorem display_lead (d : Dec) : ∃ b, d.display = (if d.m < 0 then ['-'] else []) ++ b ∧ Lead b := by
  refine ⟨_, rfl, ?_⟩
  rw [decimalDigits_eq]
  split
  · exact lead_digits _
  split
  · exact lead_point _
  · rw [List.append_assoc]
    exact lead_take '.' (by decide) _

theorem decText_lead (d : Dec) : ∃ b, decText d = (if d.m < 0 then ['-'] else []) ++ b ∧ Lead b := by
  refine ⟨_, rfl, ?_⟩
  split
  · exact lead_digits _
  split
  · split
    · exact lead_point _
    · rw [List.append_assoc]
      exact lead_take '.' (by decide) _
  · rw [List.append_assoc, List.append_assoc]
    split
    · exact lead_take '.' (by decide) _
    · exact lead_take 'E' (by decide) _

/-- What makes a way of writing numbers readable. -/
structure Readable (w : Writer) : Prop where
  shape : ∀ d, ∃ a f e, DecShape (w.number d) d a f e
  lead : ∀ d, ∃ b, w.number d = (if d.m < 0 then ['-'] else []) ++ b ∧ Lead b

theorem serde_readable : Readable serde :=
  ⟨fun d => by obtain ⟨a, f, h⟩ := display_shape d; exact ⟨a, f, [], h⟩, display_lead⟩

theorem jackson_readable : Readable jackson := ⟨decText_shape, decText_lead⟩

variable {w : Writer}

theorem Readable.read (hw : Readable w) (d : Dec) {r : Str} (hr : Stops r) : readNumber (w.number d ++ r) = some (d, r) := by
  obtain ⟨a, f, e, s⟩ := hw.shape d
  obtain ⟨b, hb, hl⟩ := hw.lead d
  exact readNumber_shape s (lead_sign s hb hl) hr

theorem Readable.head (hw : Readable w) (d : Dec) : ∃ c r, w.number d = c :: r ∧ (c = '-' ∨ digit c = true) := by
  obtain ⟨a, f, e, s⟩ := hw.shape d
  rw [s.text]
  by_cases hm : d.m < 0
  · rw [if_pos hm]
    exact ⟨'-', _, rfl, Or.inl rfl⟩
  · rw [if_neg hm]
    cases ha : a with
    | nil => exact absurd ha s.whole_ne
    | cons c a' => exact ⟨c, _, rfl, Or.inr (digit_iff.2 (s.whole c (by simp [ha])))⟩

/-! ### Values -/

/-- How a text of a value begins. -/
def Begins (c : Char) : Prop := blank c = false ∧ c ≠ ']' ∧ c ≠ '}'

instance (c : Char) : Decidable (Begins c) := inferInstanceAs (Decidable (_ ∧ _))

theorem Readable.begins (hw : Readable w) (j : Json) : ∃ c r, w.write j = c :: r ∧ Begins c := by
  cases j with
  | null => exact ⟨_, _, rfl, by decide⟩
  | bool b => cases b <;> exact ⟨_, _, rfl, by decide⟩
  | num d =>
    obtain ⟨c, r, h, hc⟩ := hw.head d
    refine ⟨c, r, h, ?_⟩
    rcases hc with rfl | hc
    · decide
    · rcases digit_cases hc with h | h | h | h | h | h | h | h | h | h <;> subst h <;> decide
  | str s => exact ⟨_, _, rfl, by decide⟩
  | arr l => exact ⟨_, _, rfl, by decide⟩
  | obj l => exact ⟨_, _, rfl, by decide⟩

theorem skip_of {c : Char} {r : Str} (h : blank c = false) : skip (c :: r) = c :: r := by
  simp [skip, h]

theorem readValue_number {n : Nat} {c : Char} {r : Str} (h : c = '-' ∨ digit c = true) :
    readValue (n + 1) (c :: r) = (readNumber (c :: r)).map fun p => (.num p.1, p.2) := by
  rcases h with rfl | h
  · rfl
  · rcases digit_cases h with h | h | h | h | h | h | h | h | h | h <;> subst h <;> rfl

theorem stops_comma (r : Str) : Stops (',' :: r) := by
  intro c hc
  simp at hc
  subst hc
  decide

theorem stops_bracket (r : Str) : Stops (']' :: r) := by
  intro c hc
  simp at hc
  subst hc
  decide

theorem stops_brace (r : Str) : Stops ('}' :: r) := by
  intro c hc
  simp at hc
  subst hc
  decide

theorem elements_false (l : List Json) (j : Json) : w.elements false (j :: l) = ',' :: w.elements true (j :: l) := by
  simp [Writer.elements]

theorem members_false (l : List (Str × Json)) (p : Str × Json) : w.members false (p :: l) = ',' :: w.members true (p :: l) := by
  obtain ⟨k, j⟩ := p
  simp [Writer.members]

theorem readValue_arr {n : Nat} {c : Char} {r : Str} (hc : Begins c) :
    readValue (n + 1) ('[' :: c :: r) = (readElements n (c :: r)).map fun p => (.arr p.1, p.2) := by
  rw [readValue, skip_of (by decide)]
  simp only
  rw [skip_of hc.1]
  split
  · next h => exact absurd (List.cons.inj h).1 hc.2.1
  · next h => rfl

theorem readValue_obj {n : Nat} {c : Char} {r : Str} (hc : Begins c) :
    readValue (n + 1) ('{' :: c :: r) = (readMembers n (c :: r)).map fun p => (.obj p.1, p.2) := by
  rw [readValue, skip_of (by decide)]
  simp only
  rw [skip_of hc.1]
  split
  · next h => exact absurd (List.cons.inj h).1 hc.2.2
  · next h => rfl

mutual
theorem readValue_write (hw : Readable w) : ∀ (j : Json) (n : Nat) (r : Str), 2 * (w.write j).length < n → Stops r →
    readValue n (w.write j ++ r) = some (j, r)
  | j, 0, r, hn, _ => absurd hn (by omega)
  | .null, n + 1, r, hn, _ => by
    simp only [Writer.write]
    rfl
  | .bool true, n + 1, r, hn, _ => by
    simp only [Writer.write]
    rfl
  | .bool false, n + 1, r, hn, _ => by
    simp only [Writer.write]
    rfl
  | .num d, n + 1, r, hn, hr => by
    simp only [Writer.write]
    have h := hw.read d hr
    obtain ⟨c, x, hx, hc⟩ := hw.head d
    rw [hx, List.cons_append] at h ⊢
    rw [readValue_number hc, h]
    rfl
  | .str s, n + 1, r, hn, _ => by
    simp only [Writer.write, quote, List.cons_append, List.append_assoc, List.nil_append]
    rw [readValue, skip_of (by decide)]
    simp only
    rw [readString_quote]
    rfl
  | .arr [], n + 1, r, hn, _ => by
    simp only [Writer.write, Writer.elements]
    rfl
  | .arr (j :: l), n + 1, r, hn, _ => by
    have h := readElements_write hw j l n r (by simp only [Writer.write, List.length_cons, List.length_append] at hn ⊢; omega)
    obtain ⟨c, x, hx, hc⟩ := hw.begins j
    have he : ∃ y, w.elements true (j :: l) = c :: y := by
      simp only [Writer.elements, hx]
      exact ⟨_, rfl⟩
    obtain ⟨y, hy⟩ := he
    simp only [Writer.write, List.cons_append, List.append_assoc, List.nil_append]
    rw [hy, List.cons_append] at h ⊢
    rw [readValue_arr hc, h]
    rfl
  | .obj [], n + 1, r, hn, _ => by
    simp only [Writer.write, Writer.members]
    rfl
  | .obj ((k, j) :: l), n + 1, r, hn, _ => by
    have h := readMembers_write hw k j l n r (by simp only [Writer.write, List.length_cons, List.length_append] at hn ⊢; omega)
    have he : ∃ y, w.members true ((k, j) :: l) = '"' :: y := by
      simp only [Writer.members, quote]
      exact ⟨_, rfl⟩
    obtain ⟨y, hy⟩ := he
    simp only [Writer.write, List.cons_append, List.append_assoc, List.nil_append]
    rw [hy, List.cons_append] at h ⊢
    rw [readValue_obj (by decide), h]
    rfl

theorem readElements_write (hw : Readable w) : ∀ (j : Json) (l : List Json) (n : Nat) (r : Str),
    2 * (w.elements true (j :: l)).length + 1 < n → readElements n (w.elements true (j :: l) ++ ']' :: r) = some (j :: l, r)
  | j, l, 0, r, hn => absurd hn (by omega)
  | j, [], n + 1, r, hn => by
    simp only [Writer.elements, if_true, List.nil_append, List.append_nil] at hn ⊢
    rw [readElements, readValue_write hw j n _ (by omega) (stops_bracket r)]
    simp only
    rw [skip_of (by decide)]
    rfl
  | j, k :: l, n + 1, r, hn => by
    rw [Writer.elements, elements_false] at hn ⊢
    simp only [if_true, List.nil_append, List.append_assoc, List.cons_append, List.length_append, List.length_cons] at hn ⊢
    rw [readElements, readValue_write hw j n _ (by omega) (stops_comma _)]
    simp only
    rw [skip_of (by decide)]
    simp only
    rw [readElements_write hw k l n r (by omega)]
    rfl

theorem readMembers_write (hw : Readable w) : ∀ (k : Str) (j : Json) (l : List (Str × Json)) (n : Nat) (r : Str),
    2 * (w.members true ((k, j) :: l)).length + 1 < n →
      readMembers n (w.members true ((k, j) :: l) ++ '}' :: r) = some ((k, j) :: l, r)
  | k, j, l, 0, r, hn => absurd hn (by omega)
  | k, j, [], n + 1, r, hn => by
    simp only [Writer.members, if_true, List.nil_append, List.append_nil, quote, List.cons_append, List.append_assoc,
      List.length_cons, List.length_append] at hn ⊢
    rw [readMembers, skip_of (by decide)]
    simp only
    rw [readString_quote]
    simp only
    rw [skip_of (by decide)]
    simp only
    rw [readValue_write hw j n _ (by omega) (stops_brace r)]
    simp only
    rw [skip_of (by decide)]
    rfl
  | k, j, (k', j') :: l, n + 1, r, hn => by
    rw [Writer.members, members_false] at hn ⊢
    simp only [if_true, List.nil_append, quote, List.cons_append, List.append_assoc,
      List.length_cons, List.length_append] at hn ⊢
    rw [readMembers, skip_of (by decide)]
    simp only
    rw [readString_quote]
    simp only
    rw [skip_of (by decide)]
    simp only
    rw [readValue_write hw j n _ (by omega) (stops_comma _)]
    simp only
    rw [skip_of (by decide)]
    simp only
    rw [readMembers_write hw k' j' l n r (by omega)]
    rfl
end

theorem read_write (hw : Readable w) (j : Json) : read (w.write j) = some j := by
  have h := readValue_write hw j (2 * (w.write j).length + 2) [] (by omega) (by intro c hc; simp at hc)
  rw [List.append_nil] at h
  rw [JsonText.read, h]
  rfl

/-! ### Characters -/

/-- A character which is printed or blank, not a control character. -/
def Plain (c : Char) : Prop := 32 ≤ c.toNat

instance (c : Char) : Decidable (Plain c) := inferInstanceAs (Decidable (_ ≤ _))

theorem hexDigit_plain : ∀ (u : Bool) (k : Nat), k < 16 → Plain (hexDigit u k) := by decide

theorem escape_plain (u : Bool) (c : Char) : ∀ x ∈ escape u c, Plain x := by
  intro x hx
  unfold escape at hx
  by_cases h1 : c = '"'
  · rw [if_pos h1] at hx; revert x; decide
  by_cases h2 : c = '\\'
  · rw [if_neg h1, if_pos h2] at hx; revert x; decide
  by_cases h3 : c = '\x08'
  · rw [if_neg h1, if_neg h2, if_pos h3] at hx; revert x; decide
  by_cases h4 : c = '\x0c'
  · rw [if_neg h1, if_neg h2, if_neg h3, if_pos h4] at hx; revert x; decide
  by_cases h5 : c = '\n'
  · rw [if_neg h1, if_neg h2, if_neg h3, if_neg h4, if_pos h5] at hx; revert x; decide
  by_cases h6 : c = '\r'
  · rw [if_neg h1, if_neg h2, if_neg h3, if_neg h4, if_neg h5, if_pos h6] at hx; revert x; decide
  by_cases h7 : c = '\t'
  · rw [if_neg h1, if_neg h2, if_neg h3, if_neg h4, if_neg h5, if_neg h6, if_pos h7] at hx; revert x; decide
  rw [if_neg h1, if_neg h2, if_neg h3, if_neg h4, if_neg h5, if_neg h6, if_neg h7] at hx
  by_cases h8 : c.toNat < 32
  · rw [if_pos h8] at hx
    simp only [List.mem_cons, List.not_mem_nil, or_false] at hx
    rcases hx with rfl | rfl | rfl | rfl | rfl | rfl
    · decide
    · decide
    · decide
    · decide
    · exact hexDigit_plain u _ (by omega)
    · exact hexDigit_plain u _ (by omega)
  · rw [if_neg h8, List.mem_singleton] at hx
    subst hx
    exact Nat.le_of_not_lt h8

theorem quote_plain (u : Bool) (s : Str) : ∀ x ∈ quote u s, Plain x := by
  intro x hx
  simp only [quote, List.cons_append, List.mem_cons, List.mem_append, List.mem_flatMap, List.not_mem_nil, or_false] at hx
  rcases hx with rfl | ⟨c, _, hc⟩ | rfl
  · decide
  · exact escape_plain u c x hc
  · decide

theorem Readable.plain (hw : Readable w) (d : Dec) : ∀ x ∈ w.number d, Plain x := by
  intro x hx
  obtain ⟨a, f, e, s⟩ := hw.shape d
  rcases s.chars x hx with h | rfl | rfl | rfl
  · have := digit_iff.2 h
    simp only [digit, Bool.and_eq_true, decide_eq_true_eq] at this
    exact Nat.le_trans (by decide) this.1
  all_goals decide

mutual
theorem write_plain (hw : Readable w) : ∀ j : Json, ∀ x ∈ w.write j, Plain x
  | .null => by simp only [Writer.write]; decide
  | .bool true => by simp only [Writer.write]; decide
  | .bool false => by simp only [Writer.write]; decide
  | .num d => by simp only [Writer.write]; exact hw.plain d
  | .str s => by simp only [Writer.write]; exact quote_plain _ s
  | .arr l => by
    intro x hx
    simp only [Writer.write, List.mem_cons, List.mem_append, List.not_mem_nil, or_false] at hx
    rcases hx with rfl | hx | rfl
    · decide
    · exact elements_plain hw l true x hx
    · decide
  | .obj l => by
    intro x hx
    simp only [Writer.write, List.mem_cons, List.mem_append, List.not_mem_nil, or_false] at hx
    rcases hx with rfl | hx | rfl
    · decide
    · exact members_plain hw l true x hx
    · decide

theorem elements_plain (hw : Readable w) : ∀ (l : List Json) (b : Bool), ∀ x ∈ w.elements b l, Plain x
  | [], b => by simp [Writer.elements]
  | j :: l, b => by
    intro x hx
    simp only [Writer.elements, List.mem_append] at hx
    rcases hx with hx | hx | hx
    · cases b
      · simp at hx; subst hx; decide
      · simp at hx
    · exact write_plain hw j x hx
    · exact elements_plain hw l false x hx

theorem members_plain (hw : Readable w) : ∀ (l : List (Str × Json)) (b : Bool), ∀ x ∈ w.members b l, Plain x
  | [], b => by simp [Writer.members]
  | (k, j) :: l, b => by
    intro x hx
    simp only [Writer.members, List.mem_append, List.mem_cons] at hx
    rcases hx with hx | hx | rfl | hx | hx
    · cases b
      · simp at hx; subst hx; decide
      · simp at hx
    · exact quote_plain _ k x hx
    · decide
    · exact write_plain hw j x hx
    · exact members_plain hw l false x hx
end

/-! ### Lines -/

theorem Readable.ends (hw : Readable w) (j : Json) : ∃ r c, w.write j = r ++ [c] ∧ unicodeBlank c = false := by
  have digits_last : ∀ (a : Str), AllDigits a → a ≠ [] → ∃ r c, a = r ++ [c] ∧ unicodeBlank c = false := by
    intro a ha hne
    refine ⟨a.dropLast, a.getLast hne, (List.dropLast_append_getLast hne).symm, ?_⟩
    have := digit_iff.2 (ha _ (List.getLast_mem hne))
    rcases digit_cases this with h | h | h | h | h | h | h | h | h | h <;> rw [h] <;> decide
  cases j with
  | null => exact ⟨str% "nul", 'l', by simp [Writer.write], by decide⟩
  | bool b =>
    cases b
    · exact ⟨str% "fals", 'e', by simp [Writer.write], by decide⟩
    · exact ⟨str% "tru", 'e', by simp [Writer.write], by decide⟩
  | num d =>
    obtain ⟨a, f, e, s⟩ := hw.shape d
    simp only [Writer.write]
    rw [s.text]
    by_cases he : e = []
    · by_cases hf : f = []
      · obtain ⟨r, c, h, hc⟩ := digits_last a s.whole s.whole_ne
        exact ⟨_, c, by rw [he, hf, h]; simp only [if_true, List.append_nil]; rw [← List.append_assoc], hc⟩
      · obtain ⟨r, c, h, hc⟩ := digits_last f s.frac hf
        exact ⟨(if d.m < 0 then ['-'] else []) ++ (a ++ '.' :: r), c, by rw [he, if_neg hf, h]; simp, hc⟩
    · obtain ⟨r, c, h, hc⟩ := digits_last e s.exp he
      exact ⟨(if d.m < 0 then ['-'] else []) ++ (a ++ ((if f = [] then [] else '.' :: f) ++ 'E' :: '-' :: r)), c,
        by rw [if_neg he, h]; simp, hc⟩
  | str s => exact ⟨'"' :: s.flatMap (escape w.upper), '"', by simp [Writer.write, quote], by decide⟩
  | arr l => exact ⟨'[' :: w.elements true l, ']', by simp [Writer.write], by decide⟩
  | obj l => exact ⟨'{' :: w.members true l, '}', by simp [Writer.write], by decide⟩

theorem Readable.starts (hw : Readable w) (j : Json) : ∃ c r, w.write j = c :: r ∧ unicodeBlank c = false := by
  cases j with
  | null => exact ⟨_, _, rfl, by decide⟩
  | bool b => cases b <;> exact ⟨_, _, rfl, by decide⟩
  | num d =>
    obtain ⟨c, r, h, hc⟩ := hw.head d
    refine ⟨c, r, h, ?_⟩
    rcases hc with rfl | hc
    · decide
    · rcases digit_cases hc with h | h | h | h | h | h | h | h | h | h <;> subst h <;> decide
  | str s => exact ⟨_, _, rfl, by decide⟩
  | arr l => exact ⟨_, _, rfl, by decide⟩
  | obj l => exact ⟨_, _, rfl, by decide⟩

theorem trim_write (hw : Readable w) (j : Json) : trim (w.write j) = w.write j := by
  obtain ⟨c, r, h, hc⟩ := hw.starts j
  have h1 : (w.write j).dropWhile unicodeBlank = w.write j := by
    rw [h]
    simp [hc]
  obtain ⟨r', c', h', hc'⟩ := hw.ends j
  rw [trim, h1, h', List.reverse_append]
  simp [hc']

theorem rustLinesFrom_line {a : Str} (h : '\n' ∉ a) (acc r : Str) :
    rustLinesFrom acc (a ++ '\n' :: r) = (acc.reverse ++ a) :: rustLines r := by
  induction a generalizing acc with
  | nil => simp [rustLinesFrom, rustLines]
  | cons c a ih =>
    simp only [List.mem_cons, not_or] at h
    rw [List.cons_append, rustLinesFrom, if_neg (Ne.symm h.1), ih h.2]
    simp

theorem rustLines_lines {l : List Str} (h : ∀ a ∈ l, '\n' ∉ a) : rustLines (l.flatMap (· ++ ['\n'])) = l := by
  induction l with
  | nil => rfl
  | cons a l ih =>
    rw [List.flatMap_cons, List.append_assoc, List.singleton_append]
    have := rustLinesFrom_line (h a (by simp)) [] (l.flatMap (· ++ ['\n']))
    rw [rustLines, this, ih (fun b hb => h b (by simp [hb]))]
    rfl

theorem javaLinesFrom_line {a : Str} (h : '\n' ∉ a ∧ '\r' ∉ a) (acc r : Str) :
    javaLinesFrom false acc (a ++ '\n' :: r) = (acc.reverse ++ a) :: javaLines r := by
  induction a generalizing acc with
  | nil => simp [javaLinesFrom, javaLines]
  | cons c a ih =>
    simp only [List.mem_cons, not_or] at h
    rw [List.cons_append, javaLinesFrom, if_neg (fun x => h.1.1 x.1.symm), if_neg (Ne.symm h.1.1), if_neg (Ne.symm h.2.1),
      ih ⟨h.1.2, h.2.2⟩]
    simp

theorem javaLines_lines {l : List Str} (h : ∀ a ∈ l, '\n' ∉ a ∧ '\r' ∉ a) : javaLines (l.flatMap (· ++ ['\n'])) = l := by
  induction l with
  | nil => rfl
  | cons a l ih =>
    rw [List.flatMap_cons, List.append_assoc, List.singleton_append]
    have := javaLinesFrom_line (h a (by simp)) [] (l.flatMap (· ++ ['\n']))
    rw [javaLines, this, ih (fun b hb => h b (by simp [hb]))]
    rfl

theorem not_newline (hw : Readable w) (j : Json) : '\n' ∉ w.write j ∧ '\r' ∉ w.write j :=
  ⟨fun h => absurd (write_plain hw j _ h) (by decide), fun h => absurd (write_plain hw j _ h) (by decide)⟩

theorem writeLine_write (hw : Readable w) (j : Json) : writeLine (w.write j) = some (w.write j ++ ['\n']) := by
  rw [writeLine, if_neg]
  intro h
  obtain ⟨c, hc, h⟩ := List.any_eq_true.1 h
  rw [eq_of_beq h] at hc
  exact (not_newline hw j).1 hc

theorem line_write (hw : Readable w) (error : Str → Str) {j : Json} (hj : nesting j < 128) :
    line error (w.write j) = .json j := by
  rw [line, trim_write hw, read_write hw]
  simp only
  rw [if_pos hj]

end JsonText
end Limabean
