/-
C121: the server reads JSON however it is written.
-/
import Verif.Spec.JsonGrammar
import Verif.Props.C88

namespace Limabean

open Clj Spec

namespace JsonText

/-! ### Characters and strings -/

theorem hexValue_of {n : Nat} {c : Char} (h : IsHex n c) : hexValue c = some n := by
  have e0 : '0'.toNat = 48 := rfl
  have ea : 'a'.toNat = 97 := rfl
  have eA : 'A'.toNat = 65 := rfl
  simp only [IsHex, e0, ea, eA] at h
  unfold hexValue digit
  rcases h with ⟨h1, h2⟩ | ⟨h1, h2, h3 | h3⟩
  · rw [if_pos (by simp; omega)]
    congr 1
    omega
  · rw [if_neg (by simp; omega), if_pos (by omega)]
    congr 1
    omega
  · rw [if_neg (by simp; omega), if_neg (by omega), if_pos (by omega)]
    congr 1
    omega

theorem hex4_of {n : Nat} {s : Str} (h : IsHex4 n s) (r : Str) : hex4 (s ++ r) = some (n, r) := by
  obtain ⟨a, b, c, d, -, hf, rfl⟩ := h
  obtain _ | ⟨ha, _ | ⟨hb, _ | ⟨hc, _ | ⟨hd, _ | _⟩⟩⟩⟩ := hf
  simp only [List.cons_append, List.nil_append, hex4, hexValue_of ha, hexValue_of hb, hexValue_of hc, hexValue_of hd]
  congr 2
  omega

theorem scalar (c : Char) : ¬ (0xD800 ≤ c.toNat ∧ c.toNat ≤ 0xDFFF) ∧ c.toNat < 0x110000 := by
  have := c.valid
  simp only [UInt32.isValidChar, Nat.isValidChar] at this
  have e : c.toNat = c.val.toNat := rfl
  omega

theorem readUnicode_pair {c : Char} {n m : Nat} {s t : Str} (h1 : IsHex4 n s) (h2 : IsHex4 m t) (hn : 0xD800 ≤ n ∧ n ≤ 0xDBFF ∧ 0xDC00 ≤ m ∧ m ≤ 0xDFFF)
    (hc : c.toNat = 0x10000 + 0x400 * (n - 0xD800) + (m - 0xDC00)) (r : Str) :
    readUnicode (s ++ '\\' :: 'u' :: (t ++ r)) = some (c, r) := by
  have e1 := hex4_of h1 ('\\' :: 'u' :: (t ++ r))
  have e2 := hex4_of h2 r
  unfold readUnicode
  simp only [e1]
  rw [if_neg (by omega), if_pos (by omega)]
  simp only [e2]
  rw [if_pos (by omega), ← hc, Char.ofNat_toNat]

theorem readEscape_of {c : Char} {t : Str} (h : CharText c t) (r : Str) :
    (t = [c] ∧ 0x20 ≤ c.toNat ∧ c ≠ '"' ∧ c ≠ '\\') ∨ ∃ u, t = '\\' :: u ∧ readEscape (u ++ r) = some (c, r) := by
  cases h with
  | plain h1 h2 h3 => exact .inl ⟨rfl, h1, h2, h3⟩
  | quote => exact .inr ⟨_, rfl, rfl⟩
  | backslash => exact .inr ⟨_, rfl, rfl⟩
  | slash => exact .inr ⟨_, rfl, rfl⟩
  | backspace => exact .inr ⟨_, rfl, rfl⟩
  | formFeed => exact .inr ⟨_, rfl, rfl⟩
  | lineFeed => exact .inr ⟨_, rfl, rfl⟩
  | carriageReturn => exact .inr ⟨_, rfl, rfl⟩
  | tab => exact .inr ⟨_, rfl, rfl⟩
  | @unit _ s h =>
    refine .inr ⟨'u' :: s, rfl, ?_⟩
    have hc := scalar c
    simp only [List.cons_append, readEscape, readUnicode, hex4_of h]
    rw [if_neg (by omega), if_neg (by omega), Char.ofNat_toNat]
  | @pair _ s t h0 h1 h2 =>
    refine .inr ⟨'u' :: (s ++ '\\' :: 'u' :: t), by simp, ?_⟩
    have hc := scalar c
    have e : 'u' :: (s ++ '\\' :: 'u' :: t) ++ r = 'u' :: (s ++ '\\' :: 'u' :: (t ++ r)) := by simp
    rw [e]
    exact readUnicode_pair h1 h2 (by omega) (by omega) r

theorem readString_of {v q : Str} (h : StringText v q) (r : Str) : ∀ n, q.length < n → readString n (q ++ '"' :: r) = some (v, r) := by
  induction h with
  | nil =>
    intro n hn
    obtain ⟨n, rfl⟩ : ∃ k, n = k + 1 := ⟨n - 1, by omega⟩
    rfl
  | @cons c s t u hc _ ih =>
    intro n hn
    obtain ⟨n, rfl⟩ : ∃ k, n = k + 1 := ⟨n - 1, by omega⟩
    rw [List.length_append] at hn
    rw [List.append_assoc]
    rcases readEscape_of hc (u ++ '"' :: r) with ⟨rfl, h1, h2, h3⟩ | ⟨x, rfl, h⟩
    · rw [List.singleton_append, readString, if_neg h2, if_neg h3, if_neg (by omega), ih n (by simp at hn; omega)]
      rfl
    · rw [List.cons_append, readString, if_neg (by decide), if_pos rfl, h]
      simp only
      rw [ih n (by simp at hn; omega)]
      rfl

theorem readString_text {v q : Str} (h : StringText v q) (r : Str) :
    readString ((q ++ '"' :: r).length + 1) (q ++ '"' :: r) = some (v, r) :=
  readString_of h r _ (by simp; omega)

/-! ### White space -/

theorem skip_blanks {b : Str} (hb : Blanks b) (s : Str) : skip (b ++ s) = skip s := by
  induction b with
  | nil => rfl
  | cons c b ih =>
    have hc : blank c = true := by
      rcases hb c (by simp) with rfl | rfl | rfl | rfl <;> rfl
    have := ih fun x hx => hb x (by simp [hx])
    simpa [skip, hc] using this

theorem stops_blanks {b : Str} (hb : Blanks b) {r : Str} (h : Stops r) : Stops (b ++ r) := by
  cases b with
  | nil => exact h
  | cons c b =>
    intro x hx
    simp at hx
    subst hx
    rcases hb c (by simp) with rfl | rfl | rfl | rfl <;> decide

/-! ### Numbers -/

theorem dec_ext {a b : Dec} (h : a.val = b.val) (hs : a.s = b.s) : a = b := by
  obtain ⟨m, s⟩ := a
  obtain ⟨m', s'⟩ := b
  simp only at hs
  subst hs
  have h10 : (10 : ℚ) ^ s ≠ 0 := by positivity
  simp only [Dec.val] at h
  rw [div_left_inj' h10] at h
  rw [Int.cast_inj.1 h]

theorem scaled_of {d : Dec} {m : Int} {k : Nat} {e : Int} (h : d.val = (m : ℚ) * 10 ^ (e - k)) (hs : (d.s : Int) = max 0 (k - e)) :
    scaled m k e = d := by
  unfold scaled
  split
  · rename_i hle
    refine dec_ext ?_ (by simp only; omega)
    rw [h]
    simp only [Dec.val]
    obtain ⟨n, hn⟩ : ∃ n : Nat, (k : Int) - e = n := ⟨(k - e).toNat, by omega⟩
    rw [show e - (k : Int) = -(n : Int) by omega, hn, zpow_neg, zpow_natCast, Int.toNat_natCast, div_eq_mul_inv]
  · rename_i hle
    refine dec_ext ?_ (by simp only; omega)
    rw [h]
    simp only [Dec.val, pow_zero, div_one]
    obtain ⟨n, hn⟩ : ∃ n : Nat, e - (k : Int) = n := ⟨(e - k).toNat, by omega⟩
    rw [hn, zpow_natCast, Int.toNat_natCast]
    push_cast
    rfl

theorem readExponent_e {c : Char} (hc : c = 'e' ∨ c = 'E') (s : Str) : readExponent (c :: s) = match s with
    | '-' :: r => readPower (-1) r
    | '+' :: r => readPower 1 r
    | r => readPower 1 r := by
  unfold readExponent
  dsimp only
  rw [if_pos hc]
  rfl

theorem readPower_of {x r : Str} (hx : AllDigits x) (hn : x ≠ []) (hr : Stops r) (sign : Int) :
    readPower sign (x ++ r) = some (sign * (Spec.digitsValue x : Int), r) := by
  obtain ⟨a1, a2⟩ := takeWhile_digits hx (fun c hc => (hr c hc).1)
  rw [readPower, a1, a2, if_neg hn]
  rfl

theorem readExponent_of {e : Int} {p : Str} (h : ExponentText e p) {r : Str} (hr : Stops r) : readExponent (p ++ r) = some (e, r) := by
  cases h with
  | none =>
    rw [List.nil_append]
    cases r with
    | nil => rfl
    | cons c r =>
      have := hr c (by simp)
      unfold readExponent
      dsimp only
      rw [if_neg (by tauto)]
  | @unsigned c x hc hx hn =>
    have hp := readPower_of hx hn hr 1
    rw [List.cons_append, readExponent_e hc]
    rw [one_mul] at hp
    rw [← hp]
    cases x with
    | nil => exact absurd rfl hn
    | cons y x =>
      have hy := digit_iff.2 (hx y (by simp))
      rcases digit_cases hy with h | h | h | h | h | h | h | h | h | h <;> subst h <;> rfl
  | @plus c x hc hx hn =>
    rw [List.cons_append, readExponent_e hc]
    have hp := readPower_of hx hn hr 1
    rw [one_mul] at hp
    exact hp
  | @minus c x hc hx hn =>
    rw [List.cons_append, readExponent_e hc]
    have hp := readPower_of hx hn hr (-1)
    rw [neg_one_mul] at hp
    exact hp

theorem exponent_head {e : Int} {p : Str} (h : ExponentText e p) {r : Str} (hr : Stops r) :
    ∀ c ∈ (p ++ r).head?, digit c = false ∧ c ≠ '.' := by
  intro c hc
  cases h with
  | none => exact ⟨(hr c hc).1, (hr c hc).2.1⟩
  | unsigned h => simp at hc; subst hc; rcases h with rfl | rfl <;> decide
  | plus h => simp at hc; subst hc; rcases h with rfl | rfl <;> decide
  | minus h => simp at hc; subst hc; rcases h with rfl | rfl <;> decide

theorem readNumber_of {d : Dec} {t : Str} (h : NumberText d t) {r : Str} (hr : Stops r) :
    readNumber (t ++ r) = some (d, r) ∧ ∃ c u, t = c :: u ∧ (c = '-' ∨ digit c = true) := by
  obtain ⟨neg, w, f, p, e, hw, hf, hne, hlead, hp, rfl, hv, hs⟩ := h
  have hval : ∀ l, JsonText.digitsValue l = Spec.digitsValue l := fun l => rfl
  obtain ⟨c0, w', rfl⟩ : ∃ c w', w = c :: w' := List.exists_cons_of_ne_nil hne
  have hc0 := digit_iff.2 (hw c0 (by simp))
  constructor
  · have hsign : readSign ((if neg then ['-'] else []) ++ (c0 :: w' ++ ((if f = [] then [] else '.' :: f) ++ p)) ++ r) =
        ((if neg then -1 else 1), (c0 :: w') ++ (((if f = [] then [] else '.' :: f) ++ p) ++ r)) := by
      cases neg
      · simp only [Bool.false_eq_true, if_false, List.nil_append, List.append_assoc, List.cons_append]
        rcases digit_cases hc0 with h | h | h | h | h | h | h | h | h | h <;> subst h <;> rfl
      · simp only [if_true, List.append_assoc, List.cons_append, List.nil_append]
        rfl
    have hstop : ∀ c ∈ (((if f = [] then [] else '.' :: f) ++ p) ++ r).head?, digit c = false := by
      intro c hc
      by_cases hf0 : f = []
      · simp only [hf0, if_true, List.nil_append] at hc
        exact (exponent_head hp hr c hc).1
      · simp [hf0] at hc
        subst hc
        decide
    obtain ⟨e1, e2⟩ := takeWhile_digits hw hstop
    have hfrac : readFraction (((if f = [] then [] else '.' :: f) ++ p) ++ r) = some (f, p ++ r) := by
      by_cases hf0 : f = []
      · simp only [hf0, if_true, List.nil_append]
        have := exponent_head hp hr
        generalize p ++ r = x at this
        unfold readFraction
        split
        · exact absurd rfl (this '.' (by simp)).2
        · rfl
      · simp only [hf0, if_false, List.cons_append, List.append_assoc]
        obtain ⟨a1, a2⟩ := takeWhile_digits hf (fun c hc => (exponent_head hp hr c hc).1)
        rw [readFraction, a1, a2, if_neg hf0]
    unfold readNumber
    simp only [hsign]
    rw [e1, e2, if_neg (by
      rintro (h | ⟨h1, h2⟩)
      · exact hne h
      · exact h2 (hlead h1)), hfrac]
    simp only [readExponent_of hp hr]
    rw [scaled_of (d := d) ?_ hs]
    rw [hv, hval]
    cases neg <;> simp
  · cases neg
    · exact ⟨c0, _, rfl, .inr hc0⟩
    · exact ⟨'-', _, rfl, .inl rfl⟩

/-! ### Values -/

/-- What reading must do with the text of a part. -/
def Reads : Part → Str → Prop
  | .value j, s => (∃ c u, s = c :: u ∧ Begins c) ∧
      ∀ n b r, Blanks b → 2 * s.length < n → Stops r → readValue n (b ++ (s ++ r)) = some (j, r)
  | .elements [], s => Blanks s
  | .elements (j :: l), s => (∃ b c u, s = b ++ c :: u ∧ Blanks b ∧ Begins c) ∧
      ∀ n r, 2 * s.length + 1 < n → readElements n (s ++ ']' :: r) = some (j :: l, r)
  | .entries [], s => Blanks s
  | .entries (p :: l), s => (∃ b u, s = b ++ '"' :: u ∧ Blanks b) ∧
      ∀ n b r, Blanks b → 2 * s.length + 1 < n → readMembers n (b ++ (s ++ '}' :: r)) = some (p :: l, r)

theorem readValue_skip {n : Nat} {s t : Str} (h : skip s = skip t) : readValue n s = readValue n t := by
  cases n with
  | zero => simp only [readValue]
  | succ n => simp only [readValue, h]

theorem readElements_skip {n : Nat} {s t : Str} (h : skip s = skip t) : readElements n s = readElements n t := by
  cases n with
  | zero => simp only [readElements]
  | succ n => simp only [readElements, readValue_skip h]

theorem readMembers_skip {n : Nat} {s t : Str} (h : skip s = skip t) : readMembers n s = readMembers n t := by
  cases n with
  | zero => simp only [readMembers]
  | succ n => simp only [readMembers, h]

theorem begins_value {c : Char} (h : c = '-' ∨ digit c = true) : Begins c := by
  rcases h with rfl | h
  · decide
  · rcases digit_cases h with h | h | h | h | h | h | h | h | h | h <;> subst h <;> decide

theorem stops_nil : Stops [] := by
  intro c hc
  simp at hc

theorem reads {p : Part} {s : Str} (h : Denotes p s) : Reads p s := by
  have lit : ∀ {j : Json} {c : Char} {u : Str}, Begins c → (∀ n r, readValue (n + 1) (c :: (u ++ r)) = some (j, r)) →
      Reads (.value j) (c :: u) := by
    intro j c u hc h
    refine ⟨⟨c, u, rfl, hc⟩, fun n b r hb hn _ => ?_⟩
    obtain ⟨n, rfl⟩ : ∃ k, n = k + 1 := ⟨n - 1, by omega⟩
    rw [readValue_skip (skip_blanks hb _)]
    exact h n r
  induction h with
  | null => exact lit (by decide) fun n r => rfl
  | yes => exact lit (by decide) fun n r => rfl
  | no => exact lit (by decide) fun n r => rfl
  | @num d s h =>
    obtain ⟨-, c, u, rfl, hc⟩ := readNumber_of h stops_nil
    refine ⟨⟨c, u, rfl, begins_value hc⟩, fun n b r hb hn hr => ?_⟩
    obtain ⟨n, rfl⟩ : ∃ k, n = k + 1 := ⟨n - 1, by omega⟩
    have hr := (readNumber_of h hr).1
    rw [readValue_skip (skip_blanks hb _), List.cons_append] at *
    rw [readValue_number hc, hr]
    rfl
  | @str v s h =>
    refine lit (by decide) fun n r => ?_
    rw [List.append_assoc, List.singleton_append, readValue, skip_of (by decide)]
    simp only
    rw [readString_text h]
    rfl
  | @arr l s _ ih =>
    cases l with
    | nil =>
      refine lit (by decide) fun n r => ?_
      rw [List.append_assoc, List.singleton_append, readValue, skip_of (by decide)]
      simp only
      rw [skip_blanks ih, skip_of (by decide)]
      rfl
    | cons j l =>
      obtain ⟨⟨b, c, u, rfl, hb, hc⟩, ih⟩ := ih
      refine ⟨⟨_, _, rfl, by decide⟩, fun n b' r hb' hn _ => ?_⟩
      obtain ⟨n, rfl⟩ : ∃ k, n = k + 1 := ⟨n - 1, by omega⟩
      have hr := ih n r (by simp only [List.length_cons, List.length_append, List.length_nil] at hn ⊢; omega)
      have e : b ++ c :: u ++ ']' :: r = b ++ c :: (u ++ ']' :: r) := by simp
      rw [e, readElements_skip (skip_blanks hb _)] at hr
      have e' : '[' :: (b ++ c :: u ++ [']']) ++ r = '[' :: (b ++ c :: (u ++ ']' :: r)) := by simp
      rw [readValue_skip (skip_blanks hb' _), e', readValue, skip_of (by decide)]
      simp only
      rw [skip_blanks hb, skip_of hc.1]
      split
      · next h => exact absurd (List.cons.inj h).1 hc.2.1
      · rw [hr]
        rfl
  | @obj l s _ ih =>
    cases l with
    | nil =>
      refine lit (by decide) fun n r => ?_
      rw [List.append_assoc, List.singleton_append, readValue, skip_of (by decide)]
      simp only
      rw [skip_blanks ih, skip_of (by decide)]
      rfl
    | cons p l =>
      obtain ⟨⟨b, u, rfl, hb⟩, ih⟩ := ih
      refine ⟨⟨_, _, rfl, by decide⟩, fun n b' r hb' hn _ => ?_⟩
      obtain ⟨n, rfl⟩ : ∃ k, n = k + 1 := ⟨n - 1, by omega⟩
      have hr := ih n [] r (by intro x hx; cases hx) (by simp only [List.length_cons, List.length_append, List.length_nil] at hn ⊢; omega)
      have e : ([] : Str) ++ (b ++ '"' :: u ++ '}' :: r) = b ++ '"' :: (u ++ '}' :: r) := by simp
      rw [e, readMembers_skip (skip_blanks hb _)] at hr
      have e' : '{' :: (b ++ '"' :: u ++ ['}']) ++ r = '{' :: (b ++ '"' :: (u ++ '}' :: r)) := by simp
      rw [readValue_skip (skip_blanks hb' _), e', readValue, skip_of (by decide)]
      simp only
      rw [skip_blanks hb, skip_of (by decide)]
      split
      · next h => exact absurd (List.cons.inj h).1 (by decide)
      · rw [hr]
        rfl
  | noElements hb => exact hb
  | @lastElement j b s b' hb _ hb' ih =>
    obtain ⟨⟨c, u, rfl, hc⟩, ih⟩ := ih
    refine ⟨⟨b, c, u ++ b', by simp, hb, hc⟩, fun n r hn => ?_⟩
    obtain ⟨n, rfl⟩ : ∃ k, n = k + 1 := ⟨n - 1, by omega⟩
    have hr := ih n b (b' ++ ']' :: r) hb (by simp only [List.length_cons, List.length_append] at hn ⊢; omega) (stops_blanks hb' (stops_bracket r))
    have e : b ++ (c :: u ++ b') ++ ']' :: r = b ++ (c :: u ++ (b' ++ ']' :: r)) := by simp
    rw [e, readElements, hr]
    simp only
    rw [skip_blanks hb', skip_of (by decide)]
    rfl
  | @element j k l b s b' t hb _ hb' _ ih ih2 =>
    obtain ⟨⟨c, u, rfl, hc⟩, ih⟩ := ih
    refine ⟨⟨b, c, u ++ (b' ++ ',' :: t), by simp, hb, hc⟩, fun n r hn => ?_⟩
    obtain ⟨n, rfl⟩ : ∃ k, n = k + 1 := ⟨n - 1, by omega⟩
    have hr := ih n b (b' ++ ',' :: (t ++ ']' :: r)) hb (by simp only [List.length_cons, List.length_append] at hn ⊢; omega)
      (stops_blanks hb' (stops_comma _))
    have h2 := ih2.2 n r (by simp only [List.length_cons, List.length_append] at hn ⊢; omega)
    have e : b ++ (c :: u ++ (b' ++ ',' :: t)) ++ ']' :: r = b ++ (c :: u ++ (b' ++ ',' :: (t ++ ']' :: r))) := by simp
    rw [e, readElements, hr]
    simp only
    rw [skip_blanks hb', skip_of (by decide)]
    simp only
    rw [h2]
    rfl
  | noEntries hb => exact hb
  | @lastEntry k j b q b1 b2 s b3 hb hk hb1 hb2 _ hb3 ih =>
    refine ⟨⟨b, _, rfl, hb⟩, fun n b' r hb' hn => ?_⟩
    obtain ⟨n, rfl⟩ : ∃ k, n = k + 1 := ⟨n - 1, by omega⟩
    have hr := ih.2 n b2 (b3 ++ '}' :: r) hb2 (by simp only [List.length_cons, List.length_append] at hn ⊢; omega) (stops_blanks hb3 (stops_brace r))
    have e : b ++ '"' :: (q ++ '"' :: (b1 ++ ':' :: (b2 ++ (s ++ b3)))) ++ '}' :: r =
        b ++ '"' :: (q ++ '"' :: (b1 ++ ':' :: (b2 ++ (s ++ (b3 ++ '}' :: r))))) := by simp
    rw [e, readMembers, skip_blanks hb', skip_blanks hb, skip_of (by decide)]
    simp only
    rw [readString_text hk]
    simp only
    rw [skip_blanks hb1, skip_of (by decide)]
    simp only
    rw [hr]
    simp only
    rw [skip_blanks hb3, skip_of (by decide)]
    rfl
  | @entry k j p l b q b1 b2 s b3 t hb hk hb1 hb2 _ hb3 _ ih ih2 =>
    refine ⟨⟨b, _, rfl, hb⟩, fun n b' r hb' hn => ?_⟩
    obtain ⟨n, rfl⟩ : ∃ k, n = k + 1 := ⟨n - 1, by omega⟩
    have hr := ih.2 n b2 (b3 ++ ',' :: (t ++ '}' :: r)) hb2 (by simp only [List.length_cons, List.length_append] at hn ⊢; omega)
      (stops_blanks hb3 (stops_comma _))
    have h2 := ih2.2 n [] r (by intro x hx; cases hx) (by simp only [List.length_cons, List.length_append] at hn ⊢; omega)
    rw [List.nil_append] at h2
    have e : b ++ '"' :: (q ++ '"' :: (b1 ++ ':' :: (b2 ++ (s ++ (b3 ++ ',' :: t))))) ++ '}' :: r =
        b ++ '"' :: (q ++ '"' :: (b1 ++ ':' :: (b2 ++ (s ++ (b3 ++ ',' :: (t ++ '}' :: r)))))) := by simp
    rw [e, readMembers, skip_blanks hb', skip_blanks hb, skip_of (by decide)]
    simp only
    rw [readString_text hk]
    simp only
    rw [skip_blanks hb1, skip_of (by decide)]
    simp only
    rw [hr]
    simp only
    rw [skip_blanks hb3, skip_of (by decide)]
    simp only
    rw [h2]
    rfl

/-! ### Only such texts are read -/

theorem of_takeWhile {p : Char → Bool} {s : Str} {c : Char} (h : c ∈ s.takeWhile p) : p c = true := by
  induction s with
  | nil => cases h
  | cons x s ih =>
    rw [List.takeWhile_cons] at h
    split at h
    · rename_i hx
      rcases List.mem_cons.1 h with rfl | h
      · exact hx
      · exact ih h
    · cases h

theorem skip_split (s : Str) : ∃ b, Blanks b ∧ s = b ++ skip s := by
  refine ⟨s.takeWhile blank, fun c hc => ?_, (List.takeWhile_append_dropWhile).symm⟩
  have := of_takeWhile hc
  simpa [blank, or_assoc] using this

theorem isHex_of {c : Char} {n : Nat} (h : hexValue c = some n) : IsHex n c := by
  have e0 : '0'.toNat = 48 := rfl
  have ea : 'a'.toNat = 97 := rfl
  have eA : 'A'.toNat = 65 := rfl
  simp only [IsHex, e0, ea, eA]
  unfold hexValue digit at h
  split at h
  · rename_i h1
    simp only [Bool.and_eq_true, decide_eq_true_eq] at h1
    cases h
    omega
  · split at h
    · cases h
      omega
    · split at h
      · cases h
        omega
      · cases h

theorem isHex4_of {s r : Str} {n : Nat} (h : hex4 s = some (n, r)) : ∃ t, IsHex4 n t ∧ s = t ++ r := by
  unfold hex4 at h
  split at h
  · rename_i a b c d r'
    split at h
    · rename_i a' b' c' d' ha hb hc hd
      cases h
      refine ⟨[a, b, c, d], ⟨a', b', c', d', rfl, ?_, by omega⟩, rfl⟩
      exact .cons (isHex_of ha) (.cons (isHex_of hb) (.cons (isHex_of hc) (.cons (isHex_of hd) .nil)))
    · cases h
  · cases h

theorem ofNat_toNat' {n : Nat} (h : n < 0xD800 ∨ (0xDFFF < n ∧ n < 0x110000)) : (Char.ofNat n).toNat = n := by
  have hv : n.isValidChar := by
    unfold Nat.isValidChar
    omega
  rw [Char.ofNat, dif_pos hv]
  rfl

theorem hex4_lt {n : Nat} {t : Str} (h : IsHex4 n t) : n < 0x10000 := by
  obtain ⟨a, b, c, d, -, hf, rfl⟩ := h
  obtain _ | ⟨ha, _ | ⟨hb, _ | ⟨hc, _ | ⟨hd, _ | _⟩⟩⟩⟩ := hf
  have lt : ∀ {n c}, IsHex n c → n < 16 := by
    intro n c h
    rcases h with h | h <;> omega
  have := lt ha
  have := lt hb
  have := lt hc
  have := lt hd
  omega

theorem charText_of {s r : Str} {c : Char} (h : readEscape s = some (c, r)) : ∃ t, CharText c ('\\' :: t) ∧ s = t ++ r := by
  unfold readEscape at h
  split at h
  · cases h; exact ⟨_, .quote, rfl⟩
  · cases h; exact ⟨_, .backslash, rfl⟩
  · cases h; exact ⟨_, .slash, rfl⟩
  · cases h; exact ⟨_, .backspace, rfl⟩
  · cases h; exact ⟨_, .formFeed, rfl⟩
  · cases h; exact ⟨_, .lineFeed, rfl⟩
  · cases h; exact ⟨_, .carriageReturn, rfl⟩
  · cases h; exact ⟨_, .tab, rfl⟩
  · rename_i x
    unfold readUnicode at h
    split at h
    · cases h
    · rename_i n r1 hn
      obtain ⟨t, ht, rfl⟩ := isHex4_of hn
      have hlt := hex4_lt ht
      split at h
      · cases h
      · split at h
        · split at h
          · rename_i r2
            split at h
            · rename_i m r3 hm
              obtain ⟨t', ht', rfl⟩ := isHex4_of hm
              split at h
              · rename_i h1 h2 h3
                simp only [Option.some.injEq, Prod.mk.injEq] at h
                obtain ⟨hc, rfl⟩ := h
                have e : c.toNat = 0x10000 + 0x400 * (n - 0xD800) + (m - 0xDC00) := by
                  rw [← hc]
                  exact ofNat_toNat' (by omega)
                refine ⟨'u' :: (t ++ '\\' :: 'u' :: t'), ?_, by simp⟩
                have := CharText.pair (c := c) (s := t) (t := t') (by omega)
                  (by rw [show 0xD800 + (c.toNat - 0x10000) / 0x400 = n by omega]; exact ht)
                  (by rw [show 0xDC00 + (c.toNat - 0x10000) % 0x400 = m by omega]; exact ht')
                simpa using this
              · cases h
            · cases h
          · cases h
        · cases h
          have e := ofNat_toNat' (n := n) (by omega)
          exact ⟨'u' :: t, CharText.unit (by rw [e]; exact ht), rfl⟩
  · cases h

theorem stringText_of : ∀ {n : Nat} {s v r : Str}, readString n s = some (v, r) → ∃ q, StringText v q ∧ s = q ++ '"' :: r
  | 0, s, v, r, h => by simp [readString] at h
  | n + 1, [], v, r, h => by simp [readString] at h
  | n + 1, c :: s, v, r, h => by
    rw [readString] at h
    split at h
    · rename_i hc
      cases h
      exact ⟨[], .nil, by rw [hc]; rfl⟩
    · rename_i hc
      split at h
      · rename_i hb
        subst hb
        split at h
        · rename_i x r' he
          rw [Option.map_eq_some_iff] at h
          obtain ⟨⟨v', r''⟩, h, e⟩ := h
          cases e
          obtain ⟨t, ht, rfl⟩ := charText_of he
          obtain ⟨q, hq, rfl⟩ := stringText_of h
          exact ⟨_, .cons ht hq, by simp⟩
        · cases h
      · rename_i hb
        split at h
        · cases h
        · rename_i h32
          rw [Option.map_eq_some_iff] at h
          obtain ⟨⟨v', r''⟩, h, e⟩ := h
          cases e
          obtain ⟨q, hq, rfl⟩ := stringText_of h
          exact ⟨_, .cons (.plain (by omega) hc hb) hq, rfl⟩

theorem digits_split (s : Str) : AllDigits (s.takeWhile digit) ∧ s = s.takeWhile digit ++ s.dropWhile digit :=
  ⟨fun _ hc => digit_iff.1 (of_takeWhile hc), (List.takeWhile_append_dropWhile).symm⟩

theorem exponentText_of {s r : Str} {e : Int} (h : readExponent s = some (e, r)) : ∃ p, ExponentText e p ∧ s = p ++ r := by
  have power : ∀ {sign : Int} {x : Str}, readPower sign x = some (e, r) →
      ∃ y, AllDigits y ∧ y ≠ [] ∧ e = sign * (Spec.digitsValue y : Int) ∧ x = y ++ r := by
    intro sign x h
    unfold readPower at h
    split at h
    · cases h
    · rename_i hn
      simp only [Option.some.injEq, Prod.mk.injEq] at h
      obtain ⟨h1, h2⟩ := digits_split x
      refine ⟨_, h1, hn, h.1.symm, ?_⟩
      rw [← h.2]
      exact h2
  cases s with
  | nil => cases h; exact ⟨[], .none, rfl⟩
  | cons c s =>
    by_cases hc : c = 'e' ∨ c = 'E'
    · rw [readExponent_e hc] at h
      split at h
      · obtain ⟨y, h1, h2, rfl, rfl⟩ := power h
        rw [neg_one_mul]
        exact ⟨_, .minus hc h1 h2, rfl⟩
      · obtain ⟨y, h1, h2, rfl, rfl⟩ := power h
        rw [one_mul]
        exact ⟨_, .plus hc h1 h2, rfl⟩
      · obtain ⟨y, h1, h2, rfl, rfl⟩ := power h
        rw [one_mul]
        exact ⟨_, .unsigned hc h1 h2, rfl⟩
    · unfold readExponent at h
      dsimp only at h
      rw [if_neg hc] at h
      cases h
      exact ⟨[], .none, rfl⟩

theorem scaled_val (m : Int) (k : Nat) (e : Int) :
    (scaled m k e).val = (m : ℚ) * 10 ^ (e - k) ∧ ((scaled m k e).s : Int) = max 0 (k - e) := by
  unfold scaled
  split
  · rename_i hle
    refine ⟨?_, by simp only; omega⟩
    simp only [Dec.val]
    obtain ⟨n, hn⟩ : ∃ n : Nat, (k : Int) - e = n := ⟨(k - e).toNat, by omega⟩
    rw [show e - (k : Int) = -(n : Int) by omega, hn, zpow_neg, zpow_natCast, Int.toNat_natCast, div_eq_mul_inv]
  · rename_i hle
    refine ⟨?_, by simp only; omega⟩
    simp only [Dec.val, pow_zero, div_one]
    obtain ⟨n, hn⟩ : ∃ n : Nat, e - (k : Int) = n := ⟨(e - k).toNat, by omega⟩
    rw [hn, zpow_natCast, Int.toNat_natCast]
    push_cast
    rfl

theorem numberText_of {s r : Str} {d : Dec} (h : readNumber s = some (d, r)) : ∃ t, NumberText d t ∧ s = t ++ r := by
  unfold readNumber at h
  have hsign : ∃ neg : Bool, (readSign s).1 = (if neg then -1 else 1) ∧ s = (if neg then ['-'] else []) ++ (readSign s).2 := by
    unfold readSign
    split
    · exact ⟨true, rfl, rfl⟩
    · exact ⟨false, rfl, rfl⟩
  obtain ⟨neg, hs1, hs2⟩ := hsign
  generalize readSign s = p at h hs1 hs2
  obtain ⟨sg, u⟩ := p
  dsimp only at h hs1 hs2
  subst hs1
  obtain ⟨hw, hu⟩ := digits_split u
  generalize u.takeWhile digit = w at h hw hu
  generalize u.dropWhile digit = x at h hu
  split at h
  · cases h
  · rename_i hlead
    split at h
    · cases h
    · rename_i f x1 hf
      split at h
      · cases h
      · rename_i e r' he
        simp only [Option.some.injEq, Prod.mk.injEq] at h
        obtain ⟨rfl, rfl⟩ := h
        obtain ⟨p, hp, rfl⟩ := exponentText_of he
        have hfrac : AllDigits f ∧ x = (if f = [] then [] else '.' :: f) ++ (p ++ r') := by
          unfold readFraction at hf
          split at hf
          · split at hf
            · cases hf
            · rename_i y hn
              simp only [Option.some.injEq, Prod.mk.injEq] at hf
              obtain ⟨rfl, h2⟩ := hf
              obtain ⟨g1, g2⟩ := digits_split y
              refine ⟨g1, ?_⟩
              rw [if_neg hn, ← h2, List.cons_append, ← g2]
          · simp only [Option.some.injEq, Prod.mk.injEq] at hf
            obtain ⟨rfl, h2⟩ := hf
            exact ⟨fun c hc => (by cases hc), by simpa using h2⟩
        obtain ⟨hv, hsc⟩ := scaled_val ((if neg then -1 else 1) * (digitsValue (w ++ f) : Int)) f.length e
        refine ⟨_, ⟨neg, w, f, p, e, hw, hfrac.1, fun e => hlead (.inl e), ?_, hp, rfl, ?_, hsc⟩, ?_⟩
        · intro h0
          by_contra hne
          exact hlead (.inr ⟨h0, hne⟩)
        · rw [hv]
          have hval : digitsValue (w ++ f) = Spec.digitsValue (w ++ f) := rfl
          rw [hval]
          cases neg <;> simp
        · rw [hs2, hu, hfrac.2]
          simp

theorem blanks_nil : Blanks [] := fun _ hc => by cases hc

theorem blanks_append {a b : Str} (ha : Blanks a) (hb : Blanks b) : Blanks (a ++ b) := by
  intro c hc
  rcases List.mem_append.1 hc with h | h
  · exact ha c h
  · exact hb c h

theorem blanks_elements {a t : Str} {l : List Json} (ha : Blanks a) (hl : l ≠ []) (h : Denotes (.elements l) t) : Denotes (.elements l) (a ++ t) := by
  cases h with
  | noElements => exact absurd rfl hl
  | lastElement hb h hb' =>
    rw [← List.append_assoc]
    exact .lastElement (blanks_append ha hb) h hb'
  | element hb h hb' h' =>
    rw [← List.append_assoc]
    exact .element (blanks_append ha hb) h hb' h'

theorem blanks_entries {a t : Str} {l : List (Str × Json)} (ha : Blanks a) (hl : l ≠ []) (h : Denotes (.entries l) t) :
    Denotes (.entries l) (a ++ t) := by
  cases h with
  | noEntries => exact absurd rfl hl
  | lastEntry hb h1 h2 h3 h4 h5 =>
    rw [← List.append_assoc]
    exact .lastEntry (blanks_append ha hb) h1 h2 h3 h4 h5
  | entry hb h1 h2 h3 h4 h5 h6 =>
    rw [← List.append_assoc]
    exact .entry (blanks_append ha hb) h1 h2 h3 h4 h5 h6

/-- What was read was written. -/
theorem written : ∀ n : Nat,
    (∀ s j r, readValue n s = some (j, r) → ∃ b t, Blanks b ∧ Denotes (.value j) t ∧ s = b ++ (t ++ r)) ∧
    (∀ s l r, readElements n s = some (l, r) → l ≠ [] ∧ ∃ t, Denotes (.elements l) t ∧ s = t ++ ']' :: r) ∧
    ∀ s l r, readMembers n s = some (l, r) → l ≠ [] ∧ ∃ t, Denotes (.entries l) t ∧ s = t ++ '}' :: r
  | 0 => ⟨fun s j r h => by simp [readValue] at h, fun s l r h => by simp [readElements] at h, fun s l r h => by simp [readMembers] at h⟩
  | n + 1 => by
    obtain ⟨hv, he, hm⟩ := written n
    refine ⟨fun s j r h => ?_, fun s l r h => ?_, fun s l r h => ?_⟩
    · obtain ⟨b, hb, hs⟩ := skip_split s
      rw [readValue] at h
      generalize skip s = x at h hs
      subst hs
      split at h
      · cases h; exact ⟨b, _, hb, .null, rfl⟩
      · cases h; exact ⟨b, _, hb, .yes, rfl⟩
      · cases h; exact ⟨b, _, hb, .no, rfl⟩
      · rw [Option.map_eq_some_iff] at h
        obtain ⟨⟨v, r'⟩, h, e⟩ := h
        cases e
        obtain ⟨q, hq, rfl⟩ := stringText_of h
        exact ⟨b, _, hb, .str hq, by simp⟩
      · rename_i y
        obtain ⟨b', hb', hy⟩ := skip_split y
        generalize skip y = z at h hy
        subst hy
        split at h
        · cases h
          exact ⟨b, _, hb, .arr (.noElements hb'), by simp⟩
        · rw [Option.map_eq_some_iff] at h
          obtain ⟨⟨l, r'⟩, h, e⟩ := h
          cases e
          obtain ⟨hl, t, ht, rfl⟩ := he _ _ _ h
          exact ⟨b, _, hb, .arr (blanks_elements hb' hl ht), by simp⟩
      · rename_i y
        obtain ⟨b', hb', hy⟩ := skip_split y
        generalize skip y = z at h hy
        subst hy
        split at h
        · cases h
          exact ⟨b, _, hb, .obj (.noEntries hb'), by simp⟩
        · rw [Option.map_eq_some_iff] at h
          obtain ⟨⟨l, r'⟩, h, e⟩ := h
          cases e
          obtain ⟨hl, t, ht, rfl⟩ := hm _ _ _ h
          exact ⟨b, _, hb, .obj (blanks_entries hb' hl ht), by simp⟩
      · rw [Option.map_eq_some_iff] at h
        obtain ⟨⟨d, r'⟩, h, e⟩ := h
        cases e
        obtain ⟨t, ht, rfl⟩ := numberText_of h
        exact ⟨b, t, hb, .num ht, rfl⟩
    · rw [readElements] at h
      split at h
      · cases h
      · rename_i j r1 h1
        obtain ⟨b, t, hb, ht, rfl⟩ := hv _ _ _ h1
        obtain ⟨b', hb', hr1⟩ := skip_split r1
        generalize skip r1 = z at h hr1
        subst hr1
        split at h
        · cases h
          exact ⟨by simp, _, .lastElement hb ht hb', by simp⟩
        · rw [Option.map_eq_some_iff] at h
          obtain ⟨⟨l', r'⟩, h, e⟩ := h
          cases e
          obtain ⟨hl, t', ht', rfl⟩ := he _ _ _ h
          obtain ⟨k, l'', rfl⟩ := List.exists_cons_of_ne_nil hl
          exact ⟨by simp, _, .element hb ht hb' ht', by simp⟩
        · cases h
    · obtain ⟨b, hb, hs⟩ := skip_split s
      rw [readMembers] at h
      generalize skip s = x at h hs
      subst hs
      split at h
      · split at h
        · cases h
        · rename_i k r1 hk
          obtain ⟨q, hq, rfl⟩ := stringText_of hk
          obtain ⟨b1, hb1, hr1⟩ := skip_split r1
          generalize skip r1 = z at h hr1
          subst hr1
          split at h
          · rename_i r2
            split at h
            · cases h
            · rename_i j r3 h3
              obtain ⟨b2, t, hb2, ht, rfl⟩ := hv _ _ _ h3
              obtain ⟨b3, hb3, hr3⟩ := skip_split r3
              generalize skip r3 = z at h hr3
              subst hr3
              split at h
              · cases h
                exact ⟨by simp, _, .lastEntry hb hq hb1 hb2 ht hb3, by simp⟩
              · rw [Option.map_eq_some_iff] at h
                obtain ⟨⟨l', r'⟩, h, e⟩ := h
                cases e
                obtain ⟨hl, t', ht', rfl⟩ := hm _ _ _ h
                obtain ⟨p, l'', rfl⟩ := List.exists_cons_of_ne_nil hl
                exact ⟨by simp, _, .entry hb hq hb1 hb2 ht hb3 ht', by simp⟩
              · cases h
          · cases h
      · cases h

/-! ### Lines -/

theorem unicodeBlank_digit {c : Char} (h : digit c = true) : unicodeBlank c = false := by
  rcases digit_cases h with h | h | h | h | h | h | h | h | h | h <;> subst h <;> decide

theorem denotes_starts {j : Json} {s : Str} (h : Denotes (.value j) s) : ∃ c u, s = c :: u ∧ unicodeBlank c = false := by
  cases h with
  | null => exact ⟨_, _, rfl, by decide⟩
  | yes => exact ⟨_, _, rfl, by decide⟩
  | no => exact ⟨_, _, rfl, by decide⟩
  | num h =>
    obtain ⟨-, c, u, rfl, hc⟩ := readNumber_of h stops_nil
    refine ⟨c, u, rfl, ?_⟩
    rcases hc with rfl | hc
    · decide
    · exact unicodeBlank_digit hc
  | str => exact ⟨_, _, rfl, by decide⟩
  | arr => exact ⟨_, _, rfl, by decide⟩
  | obj => exact ⟨_, _, rfl, by decide⟩

theorem denotes_ends {j : Json} {s : Str} (h : Denotes (.value j) s) : ∃ u c, s = u ++ [c] ∧ unicodeBlank c = false := by
  have digits_last : ∀ {a : Str}, AllDigits a → a ≠ [] → ∃ r c, a = r ++ [c] ∧ unicodeBlank c = false := by
    intro a ha hne
    exact ⟨a.dropLast, a.getLast hne, (List.dropLast_append_getLast hne).symm, unicodeBlank_digit (digit_iff.2 (ha _ (List.getLast_mem hne)))⟩
  cases h with
  | null => exact ⟨str% "nul", 'l', rfl, by decide⟩
  | yes => exact ⟨str% "tru", 'e', rfl, by decide⟩
  | no => exact ⟨str% "fals", 'e', rfl, by decide⟩
  | num h =>
    obtain ⟨neg, w, f, p, e, hw, hf, hne, -, hp, rfl, -, -⟩ := h
    have key : ∀ {x : Str}, AllDigits x → x ≠ [] → ∀ y : Str, ∃ u c, y ++ x = u ++ [c] ∧ unicodeBlank c = false := by
      intro x h1 h2 y
      obtain ⟨r, c, rfl, hc⟩ := digits_last h1 h2
      exact ⟨y ++ r, c, by simp, hc⟩
    cases hp with
    | none =>
      by_cases hf0 : f = []
      · simpa [hf0] using key hw hne (if neg then ['-'] else [])
      · simpa [hf0] using key hf hf0 ((if neg then ['-'] else []) ++ (w ++ ['.']))
    | @unsigned c x _ hx hn => simpa using key hx hn ((if neg then ['-'] else []) ++ (w ++ ((if f = [] then [] else '.' :: f) ++ [c])))
    | @plus c x _ hx hn => simpa using key hx hn ((if neg then ['-'] else []) ++ (w ++ ((if f = [] then [] else '.' :: f) ++ [c, '+'])))
    | @minus c x _ hx hn => simpa using key hx hn ((if neg then ['-'] else []) ++ (w ++ ((if f = [] then [] else '.' :: f) ++ [c, '-'])))
  | @str v s _ => exact ⟨'"' :: s, '"', by simp, by decide⟩
  | @arr l s _ => exact ⟨'[' :: s, ']', by simp, by decide⟩
  | @obj l s _ => exact ⟨'{' :: s, '}', by simp, by decide⟩

theorem dropWhile_unicode {b : Str} (hb : Blanks b) (s : Str) : (b ++ s).dropWhile unicodeBlank = s.dropWhile unicodeBlank := by
  induction b with
  | nil => rfl
  | cons c b ih =>
    have hc : unicodeBlank c = true := by
      rcases hb c (by simp) with rfl | rfl | rfl | rfl <;> rfl
    rw [List.cons_append, List.dropWhile_cons, if_pos hc]
    exact ih fun x hx => hb x (by simp [hx])

theorem trim_denotes {j : Json} {a s b : Str} (h : Denotes (.value j) s) (ha : Blanks a) (hb : Blanks b) : trim (a ++ (s ++ b)) = s := by
  obtain ⟨c, u, hs, hc⟩ := denotes_starts h
  obtain ⟨u', c', hs', hc'⟩ := denotes_ends h
  have h1 : (s ++ b).dropWhile unicodeBlank = s ++ b := by
    rw [hs]
    simp [hc]
  unfold trim
  rw [dropWhile_unicode ha, h1, List.reverse_append, dropWhile_unicode (fun x hx => hb x (List.mem_reverse.1 hx)), hs', List.reverse_append]
  simp [hc']

end JsonText

namespace Spec

/-- A line which denotes a value: the text of the value, and white space around it. -/
def LineOf (j : Json) (t : Str) : Prop := ∃ a s b, Blanks a ∧ Blanks b ∧ Denotes (.value j) s ∧ t = a ++ (s ++ b)

end Spec

open JsonText

/-- **C121.** A text is read as a value exactly if it denotes the value by the grammar of JSON: however its characters are escaped, its
numbers are written, and its parts are spaced; and nothing else is read. -/
theorem C121_read (t : Str) (j : Json) : JsonText.read t = some j ↔ LineOf j t := by
  constructor
  · intro h
    unfold JsonText.read at h
    split at h
    · rename_i j' r hr
      split at h
      · rename_i hs
        cases h
        obtain ⟨a, s, ha, hd, rfl⟩ := (written _).1 _ _ _ hr
        obtain ⟨b, hb, hr⟩ := skip_split r
        rw [hs, List.append_nil] at hr
        subst hr
        exact ⟨a, s, r, ha, hb, hd, rfl⟩
      · cases h
    · cases h
  · rintro ⟨a, s, b, ha, hb, hd, rfl⟩
    have h := (reads hd).2 (2 * (a ++ (s ++ b)).length + 2) a b ha (by simp only [List.length_append]; omega)
      (by simpa using stops_blanks hb stops_nil)
    rw [JsonText.read, h]
    simp only
    have hb' := skip_blanks hb []
    rw [List.append_nil] at hb'
    rw [if_pos (by rw [hb']; rfl)]

/-- No text denotes two values. -/
theorem C121_unambiguous {t : Str} {j k : Json} (h : LineOf j t) (h' : LineOf k t) : j = k := by
  have h1 := (C121_read t j).2 h
  rw [(C121_read t k).2 h'] at h1
  exact (Option.some.inj h1).symm

/-- The server takes a line as the value it denotes, if not more than 127 arrays and objects are within one another. -/
theorem C121_line (error : Str → Str) {t : Str} {j : Json} (h : LineOf j t) (hn : nesting j < 128) : line error t = .json j := by
  obtain ⟨a, s, b, ha, hb, hd, rfl⟩ := h
  have := (C121_read s j).2 ⟨[], s, [], blanks_nil, blanks_nil, hd, by simp⟩
  rw [line, trim_denotes hd ha hb, this]
  simp only
  rw [if_pos hn]

/-- What the server takes as a value is a text for it by the grammar, with white space around it (`str::trim` takes away any which
Unicode has), and not nested too deep. Any other line is refused. -/
theorem C121_refused (error : Str → Str) (t : Str) :
    (∃ j a s b, line error t = .json j ∧ nesting j < 128 ∧ t = a ++ (s ++ b) ∧ (∀ c ∈ a, unicodeBlank c = true) ∧
      (∀ c ∈ b, unicodeBlank c = true) ∧ LineOf j s) ∨
    (line error t = .garbage (error t) ∧ ∀ j, LineOf j t → 128 ≤ nesting j) := by
  by_cases h : ∃ j, JsonText.read (trim t) = some j ∧ nesting j < 128
  · obtain ⟨j, hj, hn⟩ := h
    refine .inl ⟨j, t.takeWhile unicodeBlank, trim t, ((t.dropWhile unicodeBlank).reverse.takeWhile unicodeBlank).reverse, ?_, hn, ?_, ?_, ?_,
      (C121_read _ _).1 hj⟩
    · rw [line, hj]; simp only; rw [if_pos hn]
    · unfold trim
      rw [← List.reverse_append, List.takeWhile_append_dropWhile, List.reverse_reverse, List.takeWhile_append_dropWhile]
    · exact fun c hc => of_takeWhile hc
    · exact fun c hc => of_takeWhile (List.mem_reverse.1 hc)
  · have hg : line error t = .garbage (error t) := by
      unfold line
      split
      · rename_i j hj
        rw [if_neg fun hn => h ⟨j, hj, hn⟩]
      · rfl
    refine .inr ⟨hg, fun j hj => ?_⟩
    by_contra hn
    rw [C121_line error hj (by omega)] at hg
    cases hg

/-- The server answers requests alike however they are written. -/
theorem C121_served (E : Ext) (L : BookLib) (orders : Nat → AMap Str (Account L) → AMap Str (Account L)) (error : Str → Str) (n : Nat)
    (s : Server E) {js : List Json} {ts ts' : List Str} (hn : ∀ j ∈ js, nesting j < 128) (h : List.Forall₂ LineOf js ts)
    (h' : List.Forall₂ LineOf js ts') (hl : ∀ t ∈ ts, '\n' ∉ t) (hl' : ∀ t ∈ ts', '\n' ∉ t) :
    serveText E L orders error n s (ts.flatMap (· ++ ['\n'])) = serveText E L orders error n s (ts'.flatMap (· ++ ['\n'])) := by
  have key : ∀ {us : List Str}, List.Forall₂ LineOf js us → us.map (line error) = js.map .json := by
    intro us hu
    clear h h'
    induction hu with
    | nil => rfl
    | @cons j t js us h1 _ ih =>
      rw [List.map_cons, List.map_cons, C121_line error h1 (hn j (by simp)), ih fun j hj => hn j (by simp [hj])]
  unfold serveText
  rw [rustLines_lines hl, rustLines_lines hl', key h, key h']

/-- Non-vacuity: two ways to write one request, one of them with blanks, an exponent, escaped characters and a pair of surrogates. -/
example : ∃ j, LineOf j (str% "{\"id\":1.50,\"m\":\"a/é𝄞\"}") ∧
    LineOf j (str% " { \"\\u0069d\" : 150e-2 ,\t\"m\": \"\\u0061\\/\\u00e9\\uD834\\udd1E\" } ") ∧ nesting j < 128 := by
  refine ⟨.obj [(str% "id", .num ⟨150, 2⟩), (str% "m", .str (str% "a/é𝄞"))], (C121_read _ _).1 ?_, (C121_read _ _).1 ?_, by decide⟩ <;>
  rfl

/-- What is not JSON is not read: an isolated surrogate, a leading zero, a comma before a bracket, a control character within a string. -/
example : (∀ j, ¬ LineOf j (str% "\"\\ud834\"")) ∧ (∀ j, ¬ LineOf j (str% "01")) ∧ (∀ j, ¬ LineOf j (str% "[1,]")) ∧
    ∀ j, ¬ LineOf j ['"', '\t', '"'] := by
  refine ⟨?_, ?_, ?_, ?_⟩ <;>
  · intro j h
    have := (C121_read _ _).2 h
    revert this
    apply ne_of_eq_of_ne (b := none)
    · decide +kernel
    · simp

end Limabean
