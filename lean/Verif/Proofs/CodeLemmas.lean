/-
Texts from which what was written can be read off: prefix codes, and the text of numbers and dates.
-/
import Verif.Props.C53
import Verif.Proofs.DecodeLemmas

namespace Limabean
namespace Clj

open Spec

/-- From the text of `a`, followed by a text allowed by `F`, both can be read off. -/
def Code {α : Type} (P : α → Prop) (f : α → Str) (F : Str → Prop) : Prop :=
  ∀ a a' r r', P a → P a' → F r → F r' → f a ++ r = f a' ++ r' → a = a' ∧ r = r'

/-- The text begins with one of the characters. -/
def Follow (D : Char → Prop) (r : Str) : Prop := ∃ c s, r = c :: s ∧ D c

/-- The text does not begin with the separator and one of the characters. -/
def NoWord (sep : Str) (S : Char → Prop) (r : Str) : Prop := ∀ c s, r = sep ++ c :: s → ¬ S c

theorem Code.weaken {α : Type} {P P' : α → Prop} {f : α → Str} {F F' : Str → Prop} (h : Code P f F) (hp : ∀ a, P' a → P a)
    (hF : ∀ r, F' r → F r) : Code P' f F' :=
  fun a a' r r' h1 h2 h3 h4 e => h a a' r r' (hp a h1) (hp a' h2) (hF r h3) (hF r' h4) e

/-- Text up to a delimiter. -/
theorem code_delim (D : Char → Prop) : Code (fun a : Str => ∀ c ∈ a, ¬ D c) id (Follow D) := by
  intro a a' r r' h1 h2 h3 h4 e
  obtain ⟨c, s, rfl, hc⟩ := h3
  obtain ⟨c', s', rfl, hc'⟩ := h4
  induction a generalizing a' with
  | nil =>
    cases a' with
    | nil => exact ⟨rfl, by simpa using e⟩
    | cons x a' =>
      simp only [id, List.nil_append, List.cons_append, List.cons.injEq] at e
      exact absurd (e.1 ▸ hc) (h2 x (by simp))
  | cons x a ih =>
    cases a' with
    | nil =>
      simp only [id, List.nil_append, List.cons_append, List.cons.injEq] at e
      exact absurd (e.1 ▸ hc') (h1 x (by simp))
    | cons y a' =>
      simp only [id, List.cons_append, List.cons.injEq] at e
      obtain ⟨rfl, e⟩ := e
      obtain ⟨i1, i2⟩ := ih a' (fun c hc => h1 c (by simp [hc])) (fun c hc => h2 c (by simp [hc])) e
      exact ⟨by rw [i1], i2⟩

/-- Text in quotes. -/
theorem code_quoted : Code (fun a : Str => '"' ∉ a) (fun a => '"' :: a ++ ['"']) (fun _ => True) := by
  intro a a' r r' h1 h2 _ _ e
  simp only [List.cons_append, List.append_assoc, List.cons.injEq, true_and, List.nil_append] at e
  obtain ⟨i1, i2⟩ := code_delim (· = '"') a a' ('"' :: r) ('"' :: r') (fun c hc e => h1 (e ▸ hc)) (fun c hc e => h2 (e ▸ hc))
    ⟨_, _, rfl, rfl⟩ ⟨_, _, rfl, rfl⟩ e
  exact ⟨i1, by simpa using i2⟩

/-- A text of known length. -/
theorem code_length {α : Type} {P : α → Prop} {f : α → Str} (n : Nat) (hl : ∀ a, P a → (f a).length = n)
    (hi : ∀ a a', P a → P a' → f a = f a' → a = a') : Code P f (fun _ => True) := by
  intro a a' r r' h1 h2 _ _ e
  obtain ⟨e1, e2⟩ := List.append_inj e (by rw [hl a h1, hl a' h2])
  exact ⟨hi a a' h1 h2 e1, e2⟩

/-- A word up to a delimiter, if the word determines what was written. -/
theorem code_word {α : Type} {P : α → Prop} {f : α → Str} (D : Char → Prop) (hd : ∀ a, P a → ∀ c ∈ f a, ¬ D c)
    (hi : ∀ a a', P a → P a' → f a = f a' → a = a') : Code P f (Follow D) := by
  intro a a' r r' h1 h2 h3 h4 e
  obtain ⟨e1, e2⟩ := code_delim D (f a) (f a') r r' (hd a h1) (hd a' h2) h3 h4 e
  exact ⟨hi a a' h1 h2 e1, e2⟩

/-- The text of an optional word, after a separator. -/
def optWord {α : Type} (sep : Str) (f : α → Str) : Option α → Str
  | some a => sep ++ f a
  | none => []

/-- An optional word, told from what follows by its first character. -/
theorem code_opt {α : Type} {P : α → Prop} {f : α → Str} {F : Str → Prop} (sep : Str) (S : Char → Prop) (h : Code P f F)
    (hS : ∀ a, P a → ∃ c s, f a = c :: s ∧ S c) :
    Code (fun o : Option α => ∀ a ∈ o, P a) (optWord sep f) (fun r => F r ∧ NoWord sep S r) := by
  intro o o' r r' h1 h2 h3 h4 e
  cases o with
  | none =>
    cases o' with
    | none => exact ⟨rfl, e⟩
    | some a' =>
      obtain ⟨c, s, hc, hSc⟩ := hS a' (h2 a' rfl)
      simp only [optWord, hc, List.nil_append, List.append_assoc, List.cons_append] at e
      exact absurd hSc (h3.2 c _ e)
  | some a =>
    cases o' with
    | none =>
      obtain ⟨c, s, hc, hSc⟩ := hS a (h1 a rfl)
      simp only [optWord, hc, List.nil_append, List.append_assoc, List.cons_append] at e
      exact absurd hSc (h4.2 c _ e.symm)
    | some a' =>
      simp only [optWord, List.append_assoc, List.append_cancel_left_eq] at e
      obtain ⟨e1, e2⟩ := h a a' r r' (h1 a rfl) (h2 a' rfl) h3.1 h4.1 e
      exact ⟨by rw [e1], e2⟩

/-- One text after the other. -/
theorem Code.seq {α β : Type} {P : α → Prop} {Q : β → Prop} {f : α → Str} {g : β → Str} {F G : Str → Prop} (h : Code P f F)
    (h' : Code Q g G) (hFG : ∀ b r, Q b → G r → F (g b ++ r)) :
    Code (fun p : α × β => P p.1 ∧ Q p.2) (fun p => f p.1 ++ g p.2) G := by
  intro a a' r r' h1 h2 h3 h4 e
  simp only [List.append_assoc] at e
  obtain ⟨e1, e2⟩ := h a.1 a'.1 _ _ h1.1 h2.1 (hFG _ _ h1.2 h3) (hFG _ _ h2.2 h4) e
  obtain ⟨e3, e4⟩ := h' a.2 a'.2 _ _ h1.2 h2.2 h3 h4 e2
  exact ⟨Prod.ext e1 e3, e4⟩

/-- A fixed text first. -/
theorem Code.lead {α : Type} {P : α → Prop} {f : α → Str} {F : Str → Prop} (h : Code P f F) (c : Str) :
    Code P (fun a => c ++ f a) F := by
  intro a a' r r' h1 h2 h3 h4 e
  simp only [List.append_assoc, List.append_cancel_left_eq] at e
  exact h a a' r r' h1 h2 h3 h4 e

/-- A fixed text last. -/
theorem Code.trail {α : Type} {P : α → Prop} {f : α → Str} {F G : Str → Prop} (h : Code P f F) (c : Str)
    (hF : ∀ r, G r → F (c ++ r)) : Code P (fun a => f a ++ c) G := by
  intro a a' r r' h1 h2 h3 h4 e
  simp only [List.append_assoc] at e
  obtain ⟨e1, e2⟩ := h a a' _ _ h1 h2 (hF r h3) (hF r' h4) e
  exact ⟨e1, by simpa using e2⟩

/-- What is determined by something that can be read off can be read off. -/
theorem Code.via {α β : Type} {P : α → Prop} {Q : β → Prop} {f : α → Str} {g : β → Str} {F : Str → Prop} (π : α → β)
    (h : Code Q g F) (hf : ∀ a, P a → f a = g (π a)) (hQ : ∀ a, P a → Q (π a))
    (hi : ∀ a a', P a → P a' → π a = π a' → a = a') : Code P f F := by
  intro a a' r r' h1 h2 h3 h4 e
  rw [hf a h1, hf a' h2] at e
  obtain ⟨e1, e2⟩ := h _ _ _ _ (hQ a h1) (hQ a' h2) h3 h4 e
  exact ⟨hi a a' h1 h2 e1, e2⟩

theorem follow_opt {α : Type} {D : Char → Prop} {sep : Str} {f : α → Str} {o : Option α} {r : Str} (h : Follow D r)
    (hs : Follow D sep) : Follow D (optWord sep f o ++ r) := by
  cases o with
  | none => exact h
  | some a =>
    obtain ⟨c, s, rfl, hc⟩ := hs
    exact ⟨c, s ++ f a ++ r, by simp [optWord], hc⟩

theorem noWord_opt {α : Type} {S : Char → Prop} {sep : Str} {P : α → Prop} {f : α → Str} {o : Option α} {r : Str}
    (h : NoWord sep S r) (hp : ∀ a ∈ o, P a) (hS : ∀ a, P a → ∃ c s, f a = c :: s ∧ ¬ S c) :
    NoWord sep S (optWord sep f o ++ r) := by
  cases o with
  | none => exact h
  | some a =>
    obtain ⟨c, s, hc, hSc⟩ := hS a (hp a rfl)
    intro c' s' e
    simp only [optWord, hc, List.append_assoc, List.cons_append, List.append_cancel_left_eq, List.cons.injEq] at e
    rw [← e.1]
    exact hSc

/-- A list of items, each followed by a further item or by what follows the list. `C` tells an item from what follows. -/
theorem code_list {α : Type} {P : α → Prop} {f : α → Str} {F : Str → Prop} (h : Code P f F) (C : Str → Prop)
    (hC : ∀ a r, P a → F r → C (f a ++ r)) (hF : ∀ a r, P a → F r → F (f a ++ r)) :
    Code (fun l : List α => ∀ a ∈ l, P a) (fun l => l.flatMap f) (fun r => F r ∧ ¬ C r) := by
  have hFs : ∀ (l : List α) (r : Str), (∀ a ∈ l, P a) → F r → F (l.flatMap f ++ r) := by
    intro l r hl hr
    induction l with
    | nil => exact hr
    | cons a l ih =>
      rw [List.flatMap_cons, List.append_assoc]
      exact hF a _ (hl a (by simp)) (ih fun x hx => hl x (by simp [hx]))
  intro l l' r r' h1 h2 h3 h4 e
  induction l generalizing l' with
  | nil =>
    cases l' with
    | nil => exact ⟨rfl, e⟩
    | cons a' l' =>
      simp only [List.flatMap_nil, List.nil_append, List.flatMap_cons, List.append_assoc] at e
      refine absurd ?_ h3.2
      rw [e]
      exact hC a' _ (h2 a' (by simp)) (hFs l' r' (fun x hx => h2 x (by simp [hx])) h4.1)
  | cons a l ih =>
    cases l' with
    | nil =>
      simp only [List.flatMap_nil, List.nil_append, List.flatMap_cons, List.append_assoc] at e
      refine absurd ?_ h4.2
      rw [← e]
      exact hC a _ (h1 a (by simp)) (hFs l r (fun x hx => h1 x (by simp [hx])) h3.1)
    | cons a' l' =>
      simp only [List.flatMap_cons, List.append_assoc] at e
      obtain ⟨rfl, e2⟩ := h a a' _ _ (h1 a (by simp)) (h2 a' (by simp))
        (hFs l r (fun x hx => h1 x (by simp [hx])) h3.1) (hFs l' r' (fun x hx => h2 x (by simp [hx])) h4.1) e
      obtain ⟨i1, i2⟩ := ih l' (fun x hx => h1 x (by simp [hx])) (fun x hx => h2 x (by simp [hx])) e2
      exact ⟨by rw [i1], i2⟩

/-- The text of a date determines it. -/
theorem code_date : Code CalendarDate Wire.fmtDate (fun _ => True) := by
  refine code_length 10 (fun a _ => rfl) fun a a' h h' e => ?_
  have h1 := Wire.parseDate_fmtDate (Wire.validDate_iff.2 h)
  have h2 := Wire.parseDate_fmtDate (Wire.validDate_iff.2 h')
  rw [e, h2] at h1
  exact (Option.some.inj h1).symm

theorem digitsValue_zeros (n : Nat) (s : Str) : digitsValue (List.replicate n '0' ++ s) = digitsValue s := by
  have hz : digitsValue (List.replicate n '0') = 0 := by
    induction n with
    | zero => rfl
    | succ n ih =>
      rw [List.replicate_succ', digitsValue_append, ih]
      simp [digitsValue]
  rw [digitsValue_append, hz]
  simp

/-- The parts of a text of a number. -/
structure DecShape (t : Str) (d : Dec) (w f e : Str) : Prop where
  whole : AllDigits w
  whole_ne : w ≠ []
  frac : AllDigits f
  exp : AllDigits e
  value : digitsValue (w ++ f) = d.m.natAbs
  scale : f.length + digitsValue e = d.s
  text : t = (if d.m < 0 then ['-'] else []) ++ (w ++ ((if f = [] then [] else '.' :: f) ++
    (if e = [] then [] else 'E' :: '-' :: e)))

theorem digits_facts (n : Nat) : AllDigits (digits n) ∧ digitsValue (digits n) = n ∧ digits n ≠ [] :=
  digitsFuel_facts (n + 1) n (by omega)

theorem decText_shape (d : Dec) : ∃ w f e, DecShape (decText d) d w f e := by
  obtain ⟨c1, c2, c3⟩ := digits_facts d.m.natAbs
  have hpos : 0 < (digits d.m.natAbs).length := List.length_pos_of_ne_nil c3
  have nodigits : AllDigits [] := fun c hc => absurd hc (by simp)
  by_cases hs : d.s = 0
  · refine ⟨digits d.m.natAbs, [], [], c1, c3, nodigits, nodigits, by simpa using c2, by simp [hs, digitsValue], ?_⟩
    simp [decText, hs]
  · by_cases hadj : ((digits d.m.natAbs).length : Int) - 1 - d.s ≥ -6
    · by_cases hlen : (digits d.m.natAbs).length ≤ d.s
      · refine ⟨['0'], List.replicate (d.s - (digits d.m.natAbs).length) '0' ++ digits d.m.natAbs, [], ?_, by simp, ?_, nodigits,
          ?_, ?_, ?_⟩
        · intro c hc
          rw [List.mem_singleton] at hc
          subst hc
          decide
        · intro c hc
          rcases List.mem_append.1 hc with hc | hc
          · rw [List.eq_of_mem_replicate hc]
            decide
          · exact c1 c hc
        · have := digitsValue_zeros 1 (List.replicate (d.s - (digits d.m.natAbs).length) '0' ++ digits d.m.natAbs)
          rw [show List.replicate 1 '0' = ['0'] from rfl] at this
          rw [this, digitsValue_zeros, c2]
        · simp only [List.length_append, List.length_replicate, digitsValue, List.foldl_nil]
          omega
        · unfold decText
          simp only [hs, if_false, hadj, if_true, hlen]
          simp [c3]
      · have hdrop : (digits d.m.natAbs).drop ((digits d.m.natAbs).length - d.s) ≠ [] := by
          intro h
          have := congrArg List.length h
          simp at this
          omega
        refine ⟨(digits d.m.natAbs).take ((digits d.m.natAbs).length - d.s),
          (digits d.m.natAbs).drop ((digits d.m.natAbs).length - d.s), [], fun c hc => c1 c (List.mem_of_mem_take hc), ?_,
          fun c hc => c1 c (List.mem_of_mem_drop hc), nodigits, ?_, ?_, ?_⟩
        · intro h
          have := congrArg List.length h
          simp at this
          omega
        · rw [List.take_append_drop, c2]
        · rw [List.length_drop]
          simp only [digitsValue, List.foldl_nil]
          omega
        · unfold decText
          simp only [hs, if_false, hadj, if_true, hlen, hdrop]
          simp
    · obtain ⟨e1, e2, e3⟩ := digits_facts (((digits d.m.natAbs).length : Int) - 1 - d.s).natAbs
      refine ⟨(digits d.m.natAbs).take 1, (digits d.m.natAbs).drop 1,
        digits (((digits d.m.natAbs).length : Int) - 1 - d.s).natAbs, fun c hc => c1 c (List.mem_of_mem_take hc), ?_,
        fun c hc => c1 c (List.mem_of_mem_drop hc), e1, ?_, ?_, ?_⟩
      · intro h
        have := congrArg List.length h
        rw [List.length_take, List.length_nil] at this
        omega
      · rw [List.take_append_drop, c2]
      · rw [e2, List.length_drop]
        omega
      · unfold decText
        simp only [hs, if_false, hadj, e3]
        by_cases h1 : 1 < (digits d.m.natAbs).length
        · have : (digits d.m.natAbs).drop 1 ≠ [] := by
            intro h
            have := congrArg List.length h
            simp at this
            omega
          simp only [gt_iff_lt, h1, if_true, this, if_false]
          simp
        · have : (digits d.m.natAbs).drop 1 = [] := List.drop_eq_nil_of_le (by omega)
          simp only [gt_iff_lt, h1, if_false, this, if_true]
          simp

theorem AllDigits.not_mem {s : Str} (h : AllDigits s) {c : Char} (hc : ¬('0' ≤ c ∧ c ≤ '9')) : c ∉ s := fun hm => hc (h c hm)

/-- The parts of the text determine the number. -/
theorem DecShape.inj {t t' : Str} {d d' : Dec} {w w' f f' e e' : Str} (s : DecShape t d w f e) (s' : DecShape t' d' w' f' e')
    (h : t = t') : d = d' := by
  rw [s.text, s'.text] at h
  have first : ∀ {w : Str}, AllDigits w → w ≠ [] → ∀ r, ∀ t, w ++ r ≠ '-' :: t := by
    intro w hw hn r t
    cases w with
    | nil => exact absurd rfl hn
    | cons c w =>
      rintro h
      have hc := hw c (by simp)
      rw [List.cons_append, List.cons.injEq] at h
      rw [h.1] at hc
      revert hc
      decide
  have hsign : (d.m < 0 ↔ d'.m < 0) ∧ w ++ ((if f = [] then [] else '.' :: f) ++ (if e = [] then [] else 'E' :: '-' :: e)) =
      w' ++ ((if f' = [] then [] else '.' :: f') ++ (if e' = [] then [] else 'E' :: '-' :: e')) := by
    by_cases h1 : d.m < 0 <;> by_cases h2 : d'.m < 0 <;> simp only [h1, h2, if_true, if_false, List.nil_append, List.cons_append] at h
    · exact ⟨by simp [h1, h2], by simpa using h⟩
    · exact absurd h.symm (first s'.whole s'.whole_ne _ _)
    · exact absurd h (first s.whole s.whole_ne _ _)
    · exact ⟨by simp [h1, h2], h⟩
  obtain ⟨hm, h⟩ := hsign
  have h := congrArg (· ++ ['\n']) h
  simp only [List.append_assoc] at h
  have notDigit : ∀ {s : Str}, AllDigits s → ∀ c ∈ s, ¬ ¬('0' ≤ c ∧ c ≤ '9') := fun hs c hc hn => hn (hs c hc)
  have follow : ∀ f e : Str, Follow (fun c => ¬('0' ≤ c ∧ c ≤ '9'))
      ((if f = [] then [] else '.' :: f) ++ ((if e = [] then [] else 'E' :: '-' :: e) ++ ['\n'])) := by
    intro f e
    by_cases hf : f = []
    · by_cases he : e = []
      · simp only [hf, he, if_true, List.nil_append]
        exact ⟨_, _, rfl, by decide⟩
      · simp only [hf, he, if_true, if_false, List.nil_append]
        exact ⟨_, _, rfl, by decide⟩
    · simp only [hf, if_false]
      exact ⟨_, _, rfl, by decide⟩
  obtain ⟨hw, h⟩ := code_delim _ w w' _ _ (notDigit s.whole) (notDigit s'.whole) (follow f e) (follow f' e') h
  have follow2 : ∀ e : Str, Follow (fun c => ¬('0' ≤ c ∧ c ≤ '9')) ((if e = [] then [] else 'E' :: '-' :: e) ++ ['\n']) := by
    intro e
    by_cases he : e = []
    · simp only [he, if_true]; exact ⟨_, _, rfl, by decide⟩
    · simp only [he, if_false]; exact ⟨_, _, rfl, by decide⟩
  have start2 : ∀ e : Str, ∀ t, (if e = [] then [] else 'E' :: '-' :: e) ++ ['\n'] ≠ '.' :: t := by
    intro e t
    by_cases he : e = [] <;> simp [he]
  have hf : f = f' ∧ (if e = [] then [] else 'E' :: '-' :: e) ++ ['\n'] = (if e' = [] then [] else 'E' :: '-' :: e') ++ ['\n'] := by
    by_cases h1 : f = [] <;> by_cases h2 : f' = [] <;> simp only [h1, h2, if_true, if_false, List.nil_append, List.cons_append] at h
    · exact ⟨by rw [h1, h2], h⟩
    · exact absurd h (start2 e _)
    · exact absurd h.symm (start2 e' _)
    · exact code_delim _ f f' _ _ (notDigit s.frac) (notDigit s'.frac) (follow2 e) (follow2 e') (by simpa using h)
  obtain ⟨hf, h⟩ := hf
  have he : e = e' := by
    by_cases h1 : e = [] <;> by_cases h2 : e' = [] <;> simp [h1, h2] at h
    · rw [h1, h2]
    · exact h
  have v1 := s.value
  have v2 := s'.value
  have k1 := s.scale
  have k2 := s'.scale
  rw [hw, hf] at v1
  rw [hf, he] at k1
  obtain ⟨m, k⟩ := d
  obtain ⟨m', k'⟩ := d'
  simp only at *
  simp only [Dec.mk.injEq]
  constructor
  · omega
  · omega

/-- The text of a number determines it. -/
theorem decText_inj {d d' : Dec} (h : decText d = decText d') : d = d' := by
  obtain ⟨w, f, e, s⟩ := decText_shape d
  obtain ⟨w', f', e', s'⟩ := decText_shape d'
  exact s.inj s' h

/-- The characters of a text of a number. -/
theorem DecShape.chars {t : Str} {d : Dec} {w f e : Str} (s : DecShape t d w f e) :
    ∀ c ∈ t, ('0' ≤ c ∧ c ≤ '9') ∨ c = '.' ∨ c = '-' ∨ c = 'E' := by
  rw [s.text]
  intro c hc
  simp only [List.mem_append] at hc
  rcases hc with hc | hc | hc | hc
  · by_cases h : d.m < 0 <;> simp [h] at hc
    exact Or.inr (Or.inr (Or.inl hc))
  · exact Or.inl (s.whole c hc)
  · by_cases h : f = [] <;> simp [h] at hc
    rcases hc with hc | hc
    · exact Or.inr (Or.inl hc)
    · exact Or.inl (s.frac c hc)
  · by_cases h : e = [] <;> simp [h] at hc
    rcases hc with hc | hc | hc
    · exact Or.inr (Or.inr (Or.inr hc))
    · exact Or.inr (Or.inr (Or.inl hc))
    · exact Or.inl (s.exp c hc)

/-- The characters of the text of a number. -/
theorem decText_chars (d : Dec) : ∀ c ∈ decText d, ('0' ≤ c ∧ c ≤ '9') ∨ c = '.' ∨ c = '-' ∨ c = 'E' := by
  obtain ⟨w, f, e, s⟩ := decText_shape d
  exact s.chars

/-- The first character of the text of a number. -/
theorem decText_head (d : Dec) : ∃ c s, decText d = c :: s ∧ (('0' ≤ c ∧ c ≤ '9') ∨ c = '-') := by
  obtain ⟨w, f, e, s⟩ := decText_shape d
  rw [s.text]
  by_cases h : d.m < 0
  · simp only [h, if_true]
    exact ⟨_, _, rfl, Or.inr rfl⟩
  · simp only [h, if_false, List.nil_append]
    have := s.whole
    have hn := s.whole_ne
    cases w with
    | nil => exact absurd rfl hn
    | cons c w => exact ⟨_, _, rfl, Or.inl (this c (by simp))⟩

/-- The text of a number is not that of a date: a dash which is neither first nor after an exponent sign occurs only in dates. -/
theorem decText_ne_date (n : Dec) (d : Date) : decText n ≠ Wire.fmtDate d := by
  intro h
  obtain ⟨w, f, e, s⟩ := decText_shape n
  have hE : 'E' ∉ Wire.fmtDate d := by
    have hd : ∀ k, Wire.digit k ≠ 'E' := by
      intro k hk
      have := Wire.undigit_digit k
      rw [hk] at this
      simp [Wire.undigit] at this
    intro hm
    simp only [Wire.fmtDate, List.mem_cons, List.not_mem_nil, or_false] at hm
    rcases hm with hm | hm | hm | hm | hm | hm | hm | hm | hm | hm <;>
      first | exact hd _ hm.symm | exact absurd hm (by decide)
  rw [← h, s.text] at hE
  have he : e = [] := by
    by_contra hc
    exact hE (by simp [hc])
  have hdash : '-' ∉ w ++ ((if f = [] then [] else '.' :: f) ++ (if e = [] then [] else 'E' :: '-' :: e)) := by
    intro hm
    simp only [he, if_true, List.append_nil, List.mem_append] at hm
    rcases hm with hm | hm
    · exact AllDigits.not_mem s.whole (by decide) hm
    · by_cases hf : f = [] <;> simp [hf] at hm
      exact AllDigits.not_mem s.frac (by decide) hm
  rw [s.text] at h
  by_cases hm : n.m < 0
  · simp only [hm, if_true, List.cons_append, List.nil_append, Wire.fmtDate, List.cons.injEq] at h
    apply hdash
    rw [h.2]
    simp
  · simp only [hm, if_false, List.nil_append] at h
    apply hdash
    rw [h]
    simp [Wire.fmtDate]

/-- The text of a number determines it, up to a character which does not occur in numbers. -/
theorem code_dec (D : Char → Prop) (hD : ∀ c, D c → ¬(('0' ≤ c ∧ c ≤ '9') ∨ c = '.' ∨ c = '-' ∨ c = 'E')) :
    Code (fun _ => True) decText (Follow D) :=
  code_word D (fun a _ c hc hd => hD c hd (decText_chars a c hc)) fun _ _ _ _ h => decText_inj h

end Clj
end Limabean
