/-
The texts of directives as prefix codes.
-/
import Verif.Proofs.CodeLemmas
import Verif.Clj.Format
import Verif.Spec.Format
import Verif.Props.C42

namespace Limabean
namespace Clj

open Spec

/-- What ends a word. -/
def WordEnd (c : Char) : Prop := c = ' ' ∨ c = '\n'

theorem word_chars {s : Str} (h : Word s) : ∀ c ∈ s, ¬ WordEnd c := by
  rintro c hc (rfl | rfl)
  · exact h.1 hc
  · exact h.2 hc

theorem follow_mono {D D' : Char → Prop} (h : ∀ c, D c → D' c) {r : Str} (hr : Follow D r) : Follow D' r := by
  obtain ⟨c, s, rfl, hc⟩ := hr
  exact ⟨c, s, rfl, h c hc⟩

theorem code_str {P : Str → Prop} (D : Char → Prop) (h : ∀ s, P s → ∀ c ∈ s, ¬ D c) : Code P (fun s => s) (Follow D) :=
  (code_delim D).weaken h fun _ hr => hr

/-- The text of a metadata value. -/
def metaStr : MetaValue → Str
  | .null => []
  | .amount u c => decText u ++ ' ' :: c
  | .string s => '"' :: s ++ ['"']
  | .currency c => c
  | .account a => a
  | .tag t => '#' :: t
  | .link l => '^' :: l
  | .date d => Wire.fmtDate d
  | .bool true => str% "TRUE"
  | .bool false => str% "FALSE"
  | .number n => decText n

/-- The text of a metadata value after its key. -/
def metaVal : MetaValue → Str
  | .null => []
  | v => ' ' :: metaStr v

/-- Kinds of metadata values which their texts tell apart, dates and numbers being taken together. -/
def valueClass : MetaValue → Nat
  | .null => 0
  | .string _ => 1
  | .tag _ => 2
  | .link _ => 3
  | .account _ => 4
  | .amount _ _ => 5
  | .bool _ => 6
  | .date _ => 7
  | .number _ => 7
  | .currency _ => 8

/-- The class of a one-line text. -/
def wordClass (t : Str) : Nat :=
  if ':' ∈ t then 4 else if ' ' ∈ t then 5 else if t = str% "TRUE" ∨ t = str% "FALSE" then 6
  else match t with
    | [] => 0
    | c :: _ => if ('0' ≤ c ∧ c ≤ '9') ∨ c = '-' then 7 else 8

/-- The class of a text. -/
def textClass (t : Str) : Nat :=
  match t with
  | '"' :: _ => 1
  | '#' :: _ => 2
  | '^' :: _ => 3
  | t => wordClass (t.takeWhile (· ≠ '\n'))

theorem textClass_word {t r : Str} {n : Nat} (hn : '\n' ∉ t) (hr : Follow (· = '\n') r) (hc : wordClass t = n)
    (hh : ∃ c s, t = c :: s ∧ c ≠ '"' ∧ c ≠ '#' ∧ c ≠ '^') : textClass (t ++ r) = n := by
  obtain ⟨c, s, rfl, h1, h2, h3⟩ := hh
  obtain ⟨c', s', rfl, rfl⟩ := hr
  have ht : List.takeWhile (fun x => decide (x ≠ '\n')) (c :: s ++ '\n' :: s') = c :: s := by
    rw [List.takeWhile_append_of_pos]
    · simp
    · intro x hx
      have : x ≠ '\n' := fun e => hn (e ▸ hx)
      simp [this]
  unfold textClass
  split
  · rename_i heq; simp only [List.cons_append, List.cons.injEq] at heq; exact absurd heq.1 h1
  · rename_i heq; simp only [List.cons_append, List.cons.injEq] at heq; exact absurd heq.1 h2
  · rename_i heq; simp only [List.cons_append, List.cons.injEq] at heq; exact absurd heq.1 h3
  · rw [ht]; exact hc

theorem digit_or_dash {c : Char} (h : ('0' ≤ c ∧ c ≤ '9') ∨ c = '-') : Special c ∧ c ≠ '"' ∧ c ≠ '#' ∧ c ≠ '^' ∧ c ≠ 'T' ∧ c ≠ 'F' := by
  have hs : ∀ n, n < 128 → (('0' ≤ Char.ofNat n ∧ Char.ofNat n ≤ '9') ∨ Char.ofNat n = '-') →
      Special (Char.ofNat n) ∧ Char.ofNat n ≠ '"' ∧ Char.ofNat n ≠ '#' ∧ Char.ofNat n ≠ '^' ∧ Char.ofNat n ≠ 'T' ∧
        Char.ofNat n ≠ 'F' := by decide +kernel
  have hlt : c.toNat < 128 := by
    rcases h with h | h
    · have : c.toNat ≤ 57 := h.2
      omega
    · subst h; decide
  have := hs c.toNat hlt
  rw [Char.ofNat_toNat] at this
  exact this h

theorem special_heads {c : Char} (h : ¬ Special c) :
    c ≠ '"' ∧ c ≠ '#' ∧ c ≠ '^' ∧ c ≠ '{' ∧ c ≠ '@' ∧ c ≠ '~' ∧ c ≠ '*' ∧ c ≠ '}' ∧ c ≠ ',' ∧ c ≠ ' ' ∧ c ≠ '\n' ∧
      ¬(('0' ≤ c ∧ c ≤ '9') ∨ c = '-') := by
  refine ⟨?_, ?_, ?_, ?_, ?_, ?_, ?_, ?_, ?_, ?_, ?_, fun hd => h (digit_or_dash hd).1⟩ <;> rintro rfl <;> exact h (by decide)

theorem dec_no {n : Dec} {c : Char} (hc : ¬(('0' ≤ c ∧ c ≤ '9') ∨ c = '.' ∨ c = '-' ∨ c = 'E')) : c ∉ decText n :=
  fun h => hc (decText_chars n c h)

theorem date_chars (d : Date) : ∀ c ∈ Wire.fmtDate d, ('0' ≤ c ∧ c ≤ '9') ∨ c = '-' := by
  have hd : ∀ k, '0' ≤ Wire.digit k ∧ Wire.digit k ≤ '9' := by
    intro k
    have h : k % 10 < 10 := Nat.mod_lt _ (by decide)
    unfold Wire.digit
    generalize k % 10 = j at h
    revert j; decide
  intro c hm
  simp only [Wire.fmtDate, List.mem_cons, List.not_mem_nil, or_false] at hm
  rcases hm with hm | hm | hm | hm | hm | hm | hm | hm | hm | hm <;> subst hm <;>
    first | exact Or.inl (hd _) | exact Or.inr rfl

theorem date_no {d : Date} {c : Char} (hc : ¬(('0' ≤ c ∧ c ≤ '9') ∨ c = '-')) : c ∉ Wire.fmtDate d :=
  fun h => hc (date_chars d c h)

theorem date_head (d : Date) : ∃ c s, Wire.fmtDate d = c :: s ∧ (('0' ≤ c ∧ c ≤ '9') ∨ c = '-') :=
  ⟨_, _, rfl, date_chars d _ (by simp [Wire.fmtDate])⟩

theorem wordClass_number {t : Str} (h : ∃ c s, t = c :: s ∧ (('0' ≤ c ∧ c ≤ '9') ∨ c = '-')) (h1 : ':' ∉ t) (h2 : ' ' ∉ t) :
    wordClass t = 7 := by
  obtain ⟨c, s, rfl, hc⟩ := h
  obtain ⟨-, -, -, -, hT, hF⟩ := digit_or_dash hc
  unfold wordClass
  rw [if_neg h1, if_neg h2, if_neg (by simp [hT, hF])]
  simp [hc]

theorem value_class {v : MetaValue} (h : WritableValue v) (hv : v ≠ .null) {r : Str} (hr : Follow (· = '\n') r) :
    textClass (metaStr v ++ r) = valueClass v := by
  cases v with
  | null => exact absurd rfl hv
  | string s => rfl
  | tag t => rfl
  | link l => rfl
  | account a =>
    obtain ⟨hw, hc, c, s, rfl, hs, -⟩ := h
    have hh := special_heads hs
    exact textClass_word hw.2 hr (if_pos hc) ⟨c, s, rfl, hh.1, hh.2.1, hh.2.2.1⟩
  | amount u c =>
    obtain ⟨hw, hc, -⟩ := h
    refine textClass_word ?_ hr ?_ ?_
    · simp only [metaStr, List.mem_append, List.mem_cons, not_or]
      exact ⟨dec_no (by decide), by decide, hw.2⟩
    · have h1 : ':' ∉ metaStr (.amount u c) := by
        simp only [metaStr, List.mem_append, List.mem_cons, not_or]
        exact ⟨dec_no (by decide), by decide, hc⟩
      simp only [wordClass, if_neg h1]
      simp [metaStr, valueClass]
    · obtain ⟨x, s, hx, hd⟩ := decText_head u
      have := digit_or_dash hd
      exact ⟨x, s ++ ' ' :: c, by simp [metaStr, hx], this.2.1, this.2.2.1, this.2.2.2.1⟩
  | currency c =>
    obtain ⟨hw, hc, -, -, ⟨x, s, rfl, hs⟩, hT, hF⟩ := h
    have hh := special_heads hs
    refine textClass_word hw.2 hr ?_ ⟨x, s, rfl, hh.1, hh.2.1, hh.2.2.1⟩
    simp only [metaStr, wordClass, if_neg hc, if_neg hw.1, hT, hF, or_self, if_false, hh.2.2.2.2.2.2.2.2.2.2.2, valueClass]
  | date d =>
    refine textClass_word (date_no (by decide)) hr (wordClass_number (date_head d) (date_no (by decide)) (date_no (by decide))) ?_
    obtain ⟨x, s, hx, hd⟩ := date_head d
    have := digit_or_dash hd
    exact ⟨x, s, hx, this.2.1, this.2.2.1, this.2.2.2.1⟩
  | number n =>
    refine textClass_word (dec_no (by decide)) hr (wordClass_number (decText_head n) (dec_no (by decide)) (dec_no (by decide))) ?_
    obtain ⟨x, s, hx, hd⟩ := decText_head n
    have := digit_or_dash hd
    exact ⟨x, s, hx, this.2.1, this.2.2.1, this.2.2.2.1⟩
  | bool b =>
    cases b
    · exact textClass_word (by decide) hr (by decide) ⟨_, _, rfl, by decide⟩
    · exact textClass_word (by decide) hr (by decide) ⟨_, _, rfl, by decide⟩

/-- A metadata value other than `nil`, up to the end of the line. -/
theorem code_value : Code (fun v => WritableValue v ∧ v ≠ .null) metaStr (Follow (· = '\n')) := by
  intro v v' r r' ⟨h1, n1⟩ ⟨h2, n2⟩ h3 h4 e
  have hc : valueClass v = valueClass v' := by rw [← value_class h1 n1 h3, ← value_class h2 n2 h4, e]
  have line : ∀ {t t' : Str}, '\n' ∉ t → '\n' ∉ t' → t ++ r = t' ++ r' → t = t' ∧ r = r' := fun ht ht' e =>
    code_delim (· = '\n') _ _ r r' (fun c hc e => ht (e ▸ hc)) (fun c hc e => ht' (e ▸ hc)) h3 h4 e
  cases v with
  | null => exact absurd rfl n1
  | string s =>
    cases v' <;> simp only [valueClass] at hc <;> try omega
    obtain ⟨rfl, e2⟩ := code_quoted _ _ r r' h1 h2 trivial trivial e
    exact ⟨rfl, e2⟩
  | tag t =>
    cases v' <;> simp only [valueClass] at hc <;> try omega
    simp only [metaStr, List.cons_append, List.cons.injEq, true_and] at e
    obtain ⟨rfl, e2⟩ := line h1.1.2 h2.1.2 e
    exact ⟨rfl, e2⟩
  | link t =>
    cases v' <;> simp only [valueClass] at hc <;> try omega
    simp only [metaStr, List.cons_append, List.cons.injEq, true_and] at e
    obtain ⟨rfl, e2⟩ := line h1.1.2 h2.1.2 e
    exact ⟨rfl, e2⟩
  | account a =>
    cases v' <;> simp only [valueClass] at hc <;> try omega
    obtain ⟨e1, e2⟩ := line (t := a) h1.1.2 h2.1.2 e
    exact ⟨by rw [e1], e2⟩
  | currency a =>
    cases v' <;> simp only [valueClass] at hc <;> try omega
    obtain ⟨e1, e2⟩ := line (t := a) h1.1.2 h2.1.2 e
    exact ⟨by rw [e1], e2⟩
  | amount u c =>
    cases v' <;> simp only [valueClass] at hc <;> try omega
    rename_i u' c'
    simp only [metaStr, List.append_assoc, List.cons_append] at e
    obtain ⟨rfl, e2⟩ := code_dec (· = ' ') (by rintro c rfl; decide) u u' _ _ trivial trivial ⟨_, _, rfl, rfl⟩ ⟨_, _, rfl, rfl⟩ e
    simp only [List.cons.injEq, true_and] at e2
    obtain ⟨rfl, e3⟩ := line h1.1.2 h2.1.2 e2
    exact ⟨rfl, e3⟩
  | bool b =>
    cases v' <;> simp only [valueClass] at hc <;> try omega
    rename_i b'
    obtain ⟨e1, e2⟩ := line (by cases b <;> decide) (by cases b' <;> decide) e
    cases b <;> cases b' <;> first | exact ⟨rfl, e2⟩ | exact absurd e1 (by decide)
  | date d =>
    cases v' <;> simp only [valueClass] at hc <;> try omega
    · obtain ⟨rfl, e2⟩ := code_date _ _ r r' h1 h2 trivial trivial e
      exact ⟨rfl, e2⟩
    · obtain ⟨e1, -⟩ := line (date_no (by decide)) (dec_no (by decide)) e
      exact absurd e1.symm (decText_ne_date _ _)
  | number n =>
    cases v' <;> simp only [valueClass] at hc <;> try omega
    · obtain ⟨e1, -⟩ := line (dec_no (by decide)) (date_no (by decide)) e
      exact absurd e1 (decText_ne_date _ _)
    · obtain ⟨e1, e2⟩ := line (dec_no (by decide)) (dec_no (by decide)) e
      exact ⟨by rw [decText_inj e1], e2⟩

/-- A metadata value after its key. -/
theorem code_metaVal : Code WritableValue metaVal (Follow (· = '\n')) := by
  intro v v' r r' h1 h2 h3 h4 e
  by_cases n1 : v = .null <;> by_cases n2 : v' = .null
  · subst n1 n2
    exact ⟨rfl, e⟩
  · subst n1
    obtain ⟨c, s, rfl, rfl⟩ := h3
    have : metaVal v' = ' ' :: metaStr v' := by cases v' <;> first | rfl | exact absurd rfl n2
    rw [this] at e
    simp [metaVal] at e
  · subst n2
    obtain ⟨c, s, rfl, rfl⟩ := h4
    have : metaVal v = ' ' :: metaStr v := by cases v <;> first | rfl | exact absurd rfl n1
    rw [this] at e
    simp [metaVal] at e
  · have e1 : metaVal v = ' ' :: metaStr v := by cases v <;> first | rfl | exact absurd rfl n1
    have e2 : metaVal v' = ' ' :: metaStr v' := by cases v' <;> first | rfl | exact absurd rfl n2
    rw [e1, e2, List.cons_append, List.cons_append, List.cons.injEq] at e
    exact code_value v v' r r' ⟨h1, n1⟩ ⟨h2, n2⟩ h3 h4 e.2

/-- A line of metadata. -/
def lineT (kv : Str × MetaValue) : Str := str% "  " ++ (kv.1 ++ ([':'] ++ (metaVal kv.2 ++ ['\n'])))

theorem code_line : Code (fun kv : Str × MetaValue => KeyName kv.1 ∧ WritableValue kv.2) lineT (fun _ => True) := by
  have h2 : Code WritableValue (fun v => [':'] ++ (metaVal v ++ ['\n'])) (fun _ => True) :=
    (code_metaVal.trail ['\n'] fun r _ => ⟨_, _, rfl, rfl⟩).lead [':']
  have h1 : Code KeyName (fun s : Str => s) (Follow (· = ':')) :=
    code_str _ fun s hs c hc e => hs.2.1 (e ▸ hc)
  exact (h1.seq h2 fun v r _ _ => ⟨_, _, rfl, rfl⟩).lead (str% "  ")

/-- Begins as a line of metadata does. -/
def MetaStart (r : Str) : Prop := ∃ c s, r = ' ' :: ' ' :: c :: s ∧ Lower c

theorem code_lines : Code (fun l : List (Str × MetaValue) => ∀ kv ∈ l, KeyName kv.1 ∧ WritableValue kv.2) (fun l => l.flatMap lineT)
    (fun r => ¬ MetaStart r) := by
  refine (code_list code_line MetaStart (fun kv r h _ => ?_) fun _ _ _ _ => trivial).weaken (fun _ h => h) fun r h => ⟨trivial, h⟩
  obtain ⟨⟨-, -, c, s, hc, hl⟩, -⟩ := h
  refine ⟨c, s ++ ([':'] ++ (metaVal kv.2 ++ ['\n'])) ++ r, ?_, hl⟩
  simp [lineT, hc]

/-- A tag or link on a line of its own. -/
def tagT (p : Char) (t : Str) : Str := [' ', ' ', p] ++ (t ++ ['\n'])

/-- Begins as the line of a tag or link does. -/
def TagStart (p : Char) (r : Str) : Prop := ∃ c s, r = ' ' :: ' ' :: p :: c :: s ∧ c ≠ ' '

theorem tagName_head {t : Str} (h : TagName t) : ∃ c s, t = c :: s ∧ c ≠ ' ' ∧ c ≠ '\n' := by
  obtain ⟨⟨h1, h2⟩, h3⟩ := h
  cases t with
  | nil => exact absurd rfl h3
  | cons c s => exact ⟨c, s, rfl, fun e => h1 (by simp [e]), fun e => h2 (by simp [e])⟩

theorem code_tagLines (p : Char) : Code (fun l : List Str => ∀ t ∈ l, TagName t) (fun l => l.flatMap (tagT p))
    (fun r => ¬ TagStart p r) := by
  have h1 : Code TagName (tagT p) (fun _ => True) :=
    ((code_str (P := TagName) (· = '\n') fun s hs c hc e => hs.1.2 (e ▸ hc)).trail ['\n'] fun r _ => ⟨_, _, rfl, rfl⟩).lead [' ', ' ', p]
  refine (code_list h1 (TagStart p) (fun t r h _ => ?_) fun _ _ _ _ => trivial).weaken (fun _ h => h) fun r h => ⟨trivial, h⟩
  obtain ⟨c, s, rfl, hc, -⟩ := tagName_head h
  exact ⟨c, s ++ ['\n'] ++ r, by simp [tagT], hc⟩

/-- A tag or link in the first line. -/
def inlineT (p : Char) (t : Str) : Str := [' ', p] ++ t

/-- Begins as such a tag or link does. -/
def InlineStart (p : Char) (r : Str) : Prop := ∃ s, r = ' ' :: p :: s

theorem code_inline (p : Char) : Code (fun l : List Str => ∀ t ∈ l, TagName t) (fun l => l.flatMap (inlineT p))
    (fun r => Follow WordEnd r ∧ ¬ InlineStart p r) := by
  have h1 : Code TagName (inlineT p) (Follow WordEnd) := (code_str _ fun s hs => word_chars hs.1).lead [' ', p]
  exact code_list h1 (InlineStart p) (fun t r _ _ => ⟨t ++ r, by simp [inlineT]⟩) fun t r _ _ => ⟨' ', p :: (t ++ r), by simp [inlineT], Or.inl rfl⟩

/-- A digit or a minus sign. -/
def NumHead (c : Char) : Prop := ('0' ≤ c ∧ c ≤ '9') ∨ c = '-'

/-- What ends an item of a cost. -/
def ItemEnd (c : Char) : Prop := c = ' ' ∨ c = ',' ∨ c = '}' ∨ c = '#'

/-- The items of a cost. -/
def costItems (c : Raw.CostSpec) : Str :=
  optWord [] decText c.perUnit ++ (optWord (str% "# ") decText c.total ++ (optWord (str% " ") (fun s => s) c.cur ++
    (optWord (str% ", ") Wire.fmtDate c.date ++ (optWord (str% ", ") (fun l => '"' :: l ++ ['"']) c.label ++
      optWord (str% ", ") (fun _ => str% "*") (if c.merge then some () else none)))))

theorem optWord_cases {α : Type} (sep : Str) (f : α → Str) (o : Option α) (r : Str) :
    (o = none ∧ optWord sep f o ++ r = r) ∨ ∃ a, o = some a ∧ optWord sep f o ++ r = sep ++ (f a ++ r) := by
  cases o with
  | none => exact Or.inl ⟨rfl, rfl⟩
  | some a => exact Or.inr ⟨a, rfl, by simp [optWord]⟩

/-- A cost without both a unit cost and a total cost, as items up to the closing brace. -/
theorem code_costItems : Code WritableCost costItems (Follow (· = '}')) := by
  have num : Code (fun _ => True) decText (Follow ItemEnd) :=
    code_dec _ (by rintro c (rfl | rfl | rfl | rfl) <;> decide)
  have hm : Code (fun o : Option Unit => ∀ a ∈ o, True) (optWord (str% ", ") fun _ => str% "*") (Follow (· = '}')) :=
    (code_opt (P := fun _ : Unit => True) (F := fun _ => True) (f := fun _ => str% "*") (str% ", ") (· = '*')
      (fun a a' r r' _ _ _ _ e => ⟨rfl, by simpa using e⟩) fun a _ => ⟨_, _, rfl, rfl⟩).weaken (fun _ h => h) fun r hr => by
        obtain ⟨c, s, rfl, rfl⟩ := hr
        exact ⟨trivial, fun c s e => by simp at e⟩
  have hl : Code (fun o : Option Str => ∀ a ∈ o, NoQuotes a) (optWord (str% ", ") fun l => '"' :: l ++ ['"'])
      (fun r => NoWord (str% ", ") (· = '"') r) :=
    (code_opt (str% ", ") (· = '"') code_quoted fun a _ => ⟨_, _, rfl, rfl⟩).weaken (fun _ h => h) fun r hr => ⟨trivial, hr⟩
  have hd : Code (fun o : Option Date => ∀ a ∈ o, CalendarDate a) (optWord (str% ", ") Wire.fmtDate)
      (fun r => NoWord (str% ", ") NumHead r) :=
    (code_opt (str% ", ") NumHead code_date fun a _ => date_head a).weaken (fun _ h => h) fun r hr => ⟨trivial, hr⟩
  have hc : Code (fun o : Option Str => ∀ a ∈ o, CurrencyName a) (optWord (str% " ") fun s => s)
      (fun r => Follow (fun c => c = ',' ∨ c = '}') r) := by
    refine (code_opt (P := CurrencyName) (f := fun s => s) (str% " ") (fun _ => True)
      (code_str (fun c => c = ',' ∨ c = '}') fun s hs c hc => ?_) fun a ha => ?_).weaken (fun _ h => h) fun r hr => ⟨hr, ?_⟩
    · rintro (rfl | rfl)
      · exact hs.2.2.1 hc
      · exact hs.2.2.2.1 hc
    · obtain ⟨c, s, hs, -⟩ := ha.2.2.2.2.1
      exact ⟨c, s, hs, trivial⟩
    · obtain ⟨c, s, rfl, hc⟩ := hr
      intro c' s' e
      simp at e
      rcases hc with rfl | rfl <;> simp at e
  have ht : Code (fun o : Option Dec => ∀ a ∈ o, True) (optWord (str% "# ") decText)
      (Follow fun c => c = ' ' ∨ c = ',' ∨ c = '}') :=
    (code_opt (P := fun _ => True) (str% "# ") NumHead num fun a _ => decText_head a).weaken (fun _ h => h) fun r hr => by
      obtain ⟨c, s, rfl, hc⟩ := hr
      refine ⟨⟨c, s, rfl, hc.imp_right fun h => h.imp_right fun h => Or.inl h⟩, fun c' s' e => ?_⟩
      rcases hc with rfl | rfl | rfl <;> simp at e
  have hp : Code (fun o : Option Dec => ∀ a ∈ o, True) (optWord [] decText) (Follow ItemEnd) :=
    (code_opt (P := fun _ => True) [] NumHead num fun a _ => decText_head a).weaken (fun _ h => h) fun r hr => by
      refine ⟨hr, ?_⟩
      obtain ⟨c, s, rfl, hc⟩ := hr
      intro c' s' e
      simp only [List.nil_append, List.cons.injEq] at e
      rw [← e.1]
      rcases hc with rfl | rfl | rfl | rfl <;> (unfold NumHead; decide)
  have f1 : ∀ (o : Option Unit) r, Follow (· = '}') r → NoWord (str% ", ") (· = '"') (optWord (str% ", ") (fun _ => str% "*") o ++ r) := by
    intro o r hr
    refine noWord_opt (P := fun _ => True) ?_ (fun _ _ => trivial) fun a _ => ⟨_, _, rfl, by decide⟩
    obtain ⟨c, s, rfl, rfl⟩ := hr
    exact fun c s e => by simp at e
  have f2 : ∀ (p : Option Str × Option Unit) r, Follow (· = '}') r → NoWord (str% ", ") NumHead
      (optWord (str% ", ") (fun l => '"' :: l ++ ['"']) p.1 ++ optWord (str% ", ") (fun _ => str% "*") p.2 ++ r) := by
    intro o r hr
    rw [List.append_assoc]
    refine noWord_opt (P := fun _ => True) ?_ (fun _ _ => trivial) fun a _ => ⟨_, _, rfl, by unfold NumHead; decide⟩
    refine noWord_opt (P := fun _ => True) ?_ (fun _ _ => trivial) fun a _ => ⟨_, _, rfl, by unfold NumHead; decide⟩
    obtain ⟨c, s, rfl, rfl⟩ := hr
    exact fun c s e => by simp at e
  have s1 := hl.seq hm fun o r _ hr => f1 o r hr
  have s2 := hd.seq s1 fun o r _ hr => f2 o r hr
  have s3 := hc.seq s2 fun o r _ hr => by
    simp only [List.append_assoc]
    exact follow_opt (follow_opt (follow_opt (follow_mono (fun c h => Or.inr h) hr) ⟨_, _, rfl, Or.inl rfl⟩) ⟨_, _, rfl, Or.inl rfl⟩)
      ⟨_, _, rfl, Or.inl rfl⟩
  have s4 := ht.seq s3 fun o r _ hr => by
    simp only [List.append_assoc]
    exact follow_opt (follow_opt (follow_opt (follow_opt (follow_mono (fun c h => Or.inr (Or.inr h)) hr) ⟨_, _, rfl, Or.inr (Or.inl rfl)⟩)
      ⟨_, _, rfl, Or.inr (Or.inl rfl)⟩) ⟨_, _, rfl, Or.inr (Or.inl rfl)⟩) ⟨_, _, rfl, Or.inl rfl⟩
  have s5 := hp.seq s4 fun o r _ hr => by
    simp only [List.append_assoc]
    exact follow_opt (follow_opt (follow_opt (follow_opt (follow_opt (follow_mono (fun c h => Or.inr (Or.inr (Or.inl h))) hr)
      ⟨_, _, rfl, Or.inr (Or.inl rfl)⟩) ⟨_, _, rfl, Or.inr (Or.inl rfl)⟩) ⟨_, _, rfl, Or.inr (Or.inl rfl)⟩) ⟨_, _, rfl, Or.inl rfl⟩)
      ⟨_, _, rfl, Or.inr (Or.inr (Or.inr rfl))⟩
  refine s5.via (fun c : Raw.CostSpec => (c.perUnit, c.total, c.cur, c.date, c.label, if c.merge then some () else none))
    (fun c _ => rfl) (fun c h => ⟨fun _ _ => trivial, fun _ _ => trivial, h.2.1, h.2.2.1, h.2.2.2, fun _ _ => trivial⟩) fun c c' _ _ e => ?_
  obtain ⟨a1, a2, a3, a4, a5, a6⟩ := c
  obtain ⟨b1, b2, b3, b4, b5, b6⟩ := c'
  simp only [Prod.mk.injEq] at e
  obtain ⟨rfl, rfl, rfl, rfl, rfl, e⟩ := e
  cases a6 <;> cases b6 <;> first | rfl | cases e

/-- The text of a cost. -/
def costT (c : Raw.CostSpec) : Str := ['{'] ++ dropLead (costItems c) ++ ['}']

/-- The first item of a cost: 1 a number, 2 a currency, 3 a date, 4 or 5 a label or `*`, 0 nothing. -/
noncomputable def itemClass (t : Str) : Nat :=
  open Classical in
  match t with
  | '}' :: _ => 0
  | '"' :: _ => 4
  | '*' :: _ => 5
  | '#' :: _ => 1
  | c :: s => if NumHead c then if ∃ d, (c :: s).takeWhile (fun x => x ≠ ' ' ∧ x ≠ ',' ∧ x ≠ '}') = Wire.fmtDate d then 3 else 1 else 2
  | [] => 0

/-- Puts back what `dropLead` removed. -/
noncomputable def restoreLead (t : Str) : Str :=
  if itemClass t = 2 then ' ' :: t else if itemClass t = 3 ∨ itemClass t = 4 ∨ itemClass t = 5 then ',' :: ' ' :: t else t

theorem itemClass_num {c : Char} {s : Str} (h : NumHead c) :
    itemClass (c :: s) = open Classical in if ∃ d, (c :: s).takeWhile (fun x => x ≠ ' ' ∧ x ≠ ',' ∧ x ≠ '}') = Wire.fmtDate d then 3 else 1 := by
  obtain ⟨hs, h1, h2, h3, -⟩ := digit_or_dash h
  have n1 : c ≠ '}' := by rintro rfl; revert h; unfold NumHead; decide
  have n2 : c ≠ '*' := by rintro rfl; revert h; unfold NumHead; decide
  unfold itemClass
  split
  · rename_i heq; exact absurd (List.cons.inj heq).1 n1
  · rename_i heq; exact absurd (List.cons.inj heq).1 h1
  · rename_i heq; exact absurd (List.cons.inj heq).1 n2
  · rename_i heq; exact absurd (List.cons.inj heq).1 h2
  · rename_i heq
    obtain ⟨rfl, rfl⟩ := List.cons.inj heq
    rw [if_pos h]
  · rename_i heq; cases heq

theorem itemClass_cur {c : Char} {s : Str} (h : ¬ Special c) : itemClass (c :: s) = 2 := by
  obtain ⟨h1, h2, h3, h4, h5, h6, h7, h8, h9, h10, h11, h12⟩ := special_heads h
  unfold itemClass
  split
  · rename_i heq; exact absurd (List.cons.inj heq).1 h8
  · rename_i heq; exact absurd (List.cons.inj heq).1 h1
  · rename_i heq; exact absurd (List.cons.inj heq).1 h7
  · rename_i heq; exact absurd (List.cons.inj heq).1 h2
  · rename_i heq
    obtain ⟨rfl, rfl⟩ := List.cons.inj heq
    rw [if_neg (show ¬ NumHead c from h12)]
  · rename_i heq; cases heq

theorem takeWhile_stop {t r : Str} (h : ∀ c ∈ t, ¬(c = ' ' ∨ c = ',' ∨ c = '}')) (hr : Follow (fun c => c = ' ' ∨ c = ',' ∨ c = '}') r) :
    (t ++ r).takeWhile (fun x => x ≠ ' ' ∧ x ≠ ',' ∧ x ≠ '}') = t := by
  obtain ⟨c, s, rfl, hc⟩ := hr
  rw [List.takeWhile_append_of_pos]
  · rcases hc with rfl | rfl | rfl <;> simp
  · intro x hx
    have := h x hx
    simp only [not_or] at this
    simp [this]

theorem dropLead_other {c : Char} {s : Str} (h1 : c ≠ ' ') (h2 : c ≠ ',') : dropLead (c :: s) = c :: s := by
  unfold dropLead
  split
  · rename_i heq; exact absurd (List.cons.inj heq).1 h2
  · rename_i heq; exact absurd (List.cons.inj heq).1 h1
  · rfl

/-- The items are recovered from what is printed between braces. -/
theorem restoreLead_items {c : Raw.CostSpec} (h : WritableCost c) {r : Str} (hr : Follow (· = '}') r) :
    restoreLead (dropLead (costItems c) ++ r) = costItems c ++ r := by
  have hr' := hr
  obtain ⟨x, r, rfl, rfl⟩ := hr
  obtain ⟨per, total, cur, date, label, merge⟩ := c
  obtain ⟨-, hcur, hdate, -⟩ := h
  dsimp only at hcur hdate
  -- what follows the number
  have hfol : ∀ r', Follow (fun c => c = ' ' ∨ c = ',' ∨ c = '}') r' → Follow (fun c => c = ' ' ∨ c = ',' ∨ c = '}')
      (optWord (str% " ") (fun s => s) cur ++ (optWord (str% ", ") Wire.fmtDate date ++ (optWord (str% ", ") (fun l => '"' :: l ++ ['"']) label ++
      (optWord (str% ", ") (fun _ => str% "*") (if merge then some () else none) ++ r')))) := fun r' hr' =>
    follow_opt (follow_opt (follow_opt (follow_opt hr' ⟨_, _, rfl, Or.inr (Or.inl rfl)⟩) ⟨_, _, rfl, Or.inr (Or.inl rfl)⟩)
      ⟨_, _, rfl, Or.inr (Or.inl rfl)⟩) ⟨_, _, rfl, Or.inl rfl⟩
  cases per with
  | some n =>
    obtain ⟨a, s, hs, ha⟩ := decText_head n
    have hd := digit_or_dash ha
    have n1 : a ≠ ' ' := by rintro rfl; revert ha; decide
    have n2 : a ≠ ',' := by rintro rfl; revert ha; decide
    generalize ht : optWord (str% "# ") decText total ++ (optWord (str% " ") (fun s => s) cur ++ (optWord (str% ", ") Wire.fmtDate date ++
      (optWord (str% ", ") (fun l => '"' :: l ++ ['"']) label ++
      optWord (str% ", ") (fun _ => str% "*") (if merge then some () else none)))) = t
    have e : costItems ⟨some n, total, cur, date, label, merge⟩ = a :: (s ++ t) := by
      rw [← ht]
      simp only [costItems, optWord, List.nil_append, hs, List.cons_append]
    rw [e, dropLead_other n1 n2]
    have hc : itemClass (a :: (s ++ t) ++ '}' :: r) = 1 := by
      rw [List.cons_append, itemClass_num ha, if_neg]
      rintro ⟨d, hd⟩
      cases total with
      | none =>
        simp only [optWord, List.nil_append] at ht
        have e2 : a :: (s ++ t ++ '}' :: r) = decText n ++ (t ++ '}' :: r) := by rw [hs]; simp
        rw [e2, takeWhile_stop] at hd
        · exact decText_ne_date _ _ hd
        · rintro c hc (rfl | rfl | rfl) <;> exact dec_no (by decide) hc
        · rw [← ht]
          simp only [List.append_assoc]
          exact hfol _ ⟨_, _, rfl, Or.inr (Or.inr rfl)⟩
      | some m =>
        -- the text goes on with `#`, which no date has
        have e2 : a :: (s ++ t ++ '}' :: r) = (decText n ++ ['#']) ++ (' ' :: (t.drop 2 ++ '}' :: r)) := by
          rw [hs, ← ht]; simp [optWord]
        rw [e2, takeWhile_stop] at hd
        · have hm : '#' ∈ Wire.fmtDate d := by rw [← hd]; simp
          exact date_no (by decide) hm
        · rintro c hc h0
          rw [List.mem_append] at hc
          rcases hc with hc | hc
          · rcases h0 with rfl | rfl | rfl <;> exact dec_no (by decide) hc
          · simp only [List.mem_singleton] at hc
            subst hc
            exact absurd h0 (by decide)
        · exact ⟨_, _, rfl, Or.inl rfl⟩
    rw [restoreLead, hc]
    simp
  | none =>
    cases total with
    | some n =>
      generalize ht : decText n ++ (optWord (str% " ") (fun s => s) cur ++ (optWord (str% ", ") Wire.fmtDate date ++
        (optWord (str% ", ") (fun l => '"' :: l ++ ['"']) label ++
        optWord (str% ", ") (fun _ => str% "*") (if merge then some () else none)))) = t
      have e : costItems ⟨none, some n, cur, date, label, merge⟩ = '#' :: ' ' :: t := by
        rw [← ht]
        simp [costItems, optWord]
      rw [e, dropLead_other (by decide) (by decide)]
      rfl
    | none =>
      cases cur with
      | some x =>
        obtain ⟨-, -, -, -, ⟨a, s, rfl, hs⟩, -⟩ := hcur x rfl
        generalize ht : (optWord (str% ", ") Wire.fmtDate date ++ (optWord (str% ", ") (fun l => '"' :: l ++ ['"']) label ++
          optWord (str% ", ") (fun _ => str% "*") (if merge then some () else none))) = t
        have e : costItems ⟨none, none, some (a :: s), date, label, merge⟩ = ' ' :: a :: (s ++ t) := by
          rw [← ht]
          simp [costItems, optWord]
        rw [e]
        have e2 : dropLead (' ' :: a :: (s ++ t)) = a :: (s ++ t) := rfl
        rw [e2, List.cons_append, restoreLead, itemClass_cur hs]
        rfl
      | none =>
        cases date with
        | some d =>
          generalize ht : (optWord (str% ", ") (fun l => '"' :: l ++ ['"']) label ++
            optWord (str% ", ") (fun _ => str% "*") (if merge then some () else none)) = t
          have e : costItems ⟨none, none, none, some d, label, merge⟩ = ',' :: ' ' :: (Wire.fmtDate d ++ t) := by
            rw [← ht]
            simp [costItems, optWord]
          rw [e]
          have e2 : dropLead (',' :: ' ' :: (Wire.fmtDate d ++ t)) = Wire.fmtDate d ++ t := rfl
          have hc : itemClass (Wire.fmtDate d ++ t ++ '}' :: r) = 3 := by
            obtain ⟨a, s, hs, ha⟩ := date_head d
            have e3 : Wire.fmtDate d ++ t ++ '}' :: r = a :: (s ++ t ++ '}' :: r) := by rw [hs]; rfl
            rw [e3, itemClass_num ha, if_pos]
            refine ⟨d, ?_⟩
            have e4 : a :: (s ++ t ++ '}' :: r) = Wire.fmtDate d ++ (t ++ '}' :: r) := by rw [hs]; simp
            rw [e4]
            refine takeWhile_stop ?_ ?_
            · rintro c hc (rfl | rfl | rfl) <;> exact date_no (by decide) hc
            · rw [← ht, List.append_assoc]
              exact follow_opt (follow_opt ⟨_, _, rfl, Or.inr (Or.inr rfl)⟩ ⟨_, _, rfl, Or.inr (Or.inl rfl)⟩) ⟨_, _, rfl, Or.inr (Or.inl rfl)⟩
          rw [e2, restoreLead, hc]
          rfl
        | none =>
          cases label with
          | some l =>
            generalize ht : ['"'] ++ optWord (str% ", ") (fun _ => str% "*") (if merge then some () else none) = t
            have e : costItems ⟨none, none, none, none, some l, merge⟩ = ',' :: ' ' :: '"' :: (l ++ t) := by
              rw [← ht]
              simp [costItems, optWord]
            rw [e]
            rfl
          | none => cases merge <;> rfl

/-- A cost without both a unit cost and a total cost. -/
theorem code_cost : Code WritableCost costT (fun _ => True) := by
  intro c c' r r' h h' _ _ e
  simp only [costT, List.append_assoc, List.cons_append, List.nil_append, List.cons.injEq, true_and] at e
  have e1 := congrArg restoreLead e
  rw [restoreLead_items h ⟨_, _, rfl, rfl⟩, restoreLead_items h' ⟨_, _, rfl, rfl⟩] at e1
  obtain ⟨rfl, e2⟩ := code_costItems c c' _ _ h h' ⟨_, _, rfl, rfl⟩ ⟨_, _, rfl, rfl⟩ e1
  exact ⟨rfl, (List.cons.inj e2).2⟩

/-- The text of a price. -/
def priceT (p : Raw.PriceSpec) : Str :=
  ['@'] ++ (optWord (str% " ") decText p.perUnit ++ (optWord (str% " # ") decText p.total ++ optWord (str% " ") (fun s => s) p.cur))

theorem code_price : Code WritablePrice priceT (Follow (· = '\n')) := by
  have num : Code (fun _ => True) decText (Follow WordEnd) := code_dec _ (by rintro c (rfl | rfl) <;> decide)
  have hc : Code (fun o : Option Str => ∀ a ∈ o, CurrencyName a) (optWord (str% " ") fun s => s) (Follow (· = '\n')) := by
    refine (code_opt (P := CurrencyName) (f := fun s => s) (str% " ") (fun _ => True) (code_str WordEnd fun s hs => word_chars hs.1)
      fun a ha => ?_).weaken (fun _ h => h) fun r hr => ⟨follow_mono (fun _ h => Or.inr h) hr, ?_⟩
    · obtain ⟨c, s, hs, -⟩ := ha.2.2.2.2.1
      exact ⟨c, s, hs, trivial⟩
    · obtain ⟨c, s, rfl, rfl⟩ := hr
      exact fun c s e => by simp at e
  have ht : Code (fun o : Option Dec => ∀ a ∈ o, True) (optWord (str% " # ") decText)
      (fun r => Follow WordEnd r ∧ ∀ s, r ≠ ' ' :: '#' :: s) :=
    (code_opt (P := fun _ => True) (str% " # ") NumHead num fun a _ => decText_head a).weaken (fun _ h => h) fun r hr =>
      ⟨hr.1, fun c s e => absurd e (by simpa using hr.2 (' ' :: c :: s))⟩
  have hp : Code (fun o : Option Dec => ∀ a ∈ o, True) (optWord (str% " ") decText) (fun r => Follow WordEnd r ∧ NoWord (str% " ") NumHead r) :=
    code_opt (P := fun _ => True) (str% " ") NumHead num fun a _ => decText_head a
  have s1 := ht.seq hc fun o r ho hr => by
    refine ⟨follow_opt (follow_mono (fun _ h => Or.inr h) hr) ⟨_, _, rfl, Or.inl rfl⟩, fun s e => ?_⟩
    rcases optWord_cases (str% " ") (fun s => s) o r with ⟨-, h⟩ | ⟨a, rfl, h⟩ <;> rw [h] at e
    · obtain ⟨c, s, rfl, rfl⟩ := hr
      simp at e
    · obtain ⟨c, t, rfl, hs⟩ := (ho a rfl).2.2.2.2.1
      simp only [List.cons_append, List.nil_append, List.cons.injEq, true_and] at e
      exact (special_heads hs).2.1 e.1
  have s2 := hp.seq s1 fun o r ho hr => by
    simp only [List.append_assoc]
    refine ⟨follow_opt (follow_opt (follow_mono (fun _ h => Or.inr h) hr) ⟨_, _, rfl, Or.inl rfl⟩) ⟨_, _, rfl, Or.inl rfl⟩, fun c s e => ?_⟩
    rcases optWord_cases (str% " # ") decText o.1 (optWord (str% " ") (fun s => s) o.2 ++ r) with ⟨-, h⟩ | ⟨a, -, h⟩ <;> rw [h] at e
    · rcases optWord_cases (str% " ") (fun s => s) o.2 r with ⟨-, h⟩ | ⟨a, ha, h⟩ <;> rw [h] at e
      · obtain ⟨c, s, rfl, rfl⟩ := hr
        simp at e
      · obtain ⟨x, t, rfl, hs⟩ := (ho.2 a (by simp [ha])).2.2.2.2.1
        simp only [List.cons_append, List.nil_append, List.cons.injEq, true_and] at e
        rw [← e.1]
        exact (special_heads hs).2.2.2.2.2.2.2.2.2.2.2
    · simp only [List.cons_append, List.nil_append, List.cons.injEq, true_and] at e
      rw [← e.1]
      unfold NumHead; decide
  refine (s2.lead ['@']).via (fun p : Raw.PriceSpec => (p.perUnit, p.total, p.cur)) (fun _ _ => rfl)
    (fun p h => ⟨fun _ _ => trivial, fun _ _ => trivial, h.2⟩) fun c c' _ _ e => ?_
  obtain ⟨a1, a2, a3⟩ := c
  obtain ⟨b1, b2, b3⟩ := c'
  simp only [Prod.mk.injEq] at e
  obtain ⟨rfl, rfl, rfl⟩ := e
  rfl

theorem lower_heads {c : Char} (h : Lower c) : c ≠ '#' ∧ c ≠ '^' ∧ c ≠ ' ' := by
  refine ⟨?_, ?_, ?_⟩ <;> rintro rfl <;> exact absurd h (by decide)

theorem lines_start {l : List (Str × MetaValue)} {r : Str} (hl : ∀ kv ∈ l, KeyName kv.1 ∧ WritableValue kv.2) :
    l.flatMap lineT ++ r = r ∨ MetaStart (l.flatMap lineT ++ r) := by
  cases l with
  | nil => exact Or.inl rfl
  | cons kv l =>
    right
    obtain ⟨⟨-, -, c, s, hc, hlow⟩, -⟩ := hl kv (by simp)
    exact ⟨c, s ++ ([':'] ++ (metaVal kv.2 ++ ['\n'])) ++ (l.flatMap lineT ++ r), by simp [lineT, hc], hlow⟩

theorem tagLines_start {p : Char} {l : List Str} {r : Str} (hl : ∀ t ∈ l, TagName t) :
    l.flatMap (tagT p) ++ r = r ∨ TagStart p (l.flatMap (tagT p) ++ r) := by
  cases l with
  | nil => exact Or.inl rfl
  | cons t l =>
    right
    obtain ⟨c, s, rfl, hc, -⟩ := tagName_head (hl t (by simp))
    exact ⟨c, s ++ ['\n'] ++ (l.flatMap (tagT p) ++ r), by simp [tagT], hc⟩

theorem metaStart_not_tagStart {p : Char} (hp : p = '#' ∨ p = '^') {r : Str} (h : MetaStart r) : ¬ TagStart p r := by
  obtain ⟨c, s, rfl, hc⟩ := h
  rintro ⟨c', s', e, -⟩
  simp only [List.cons.injEq, true_and] at e
  rcases hp with rfl | rfl
  · exact (lower_heads hc).1 e.1
  · exact (lower_heads hc).2.1 e.1

theorem tagStart_not_tagStart {p q : Char} (h : p ≠ q) {r : Str} (hr : TagStart p r) : ¬ TagStart q r := by
  obtain ⟨c, s, rfl, -⟩ := hr
  rintro ⟨c', s', e, -⟩
  simp only [List.cons.injEq, true_and] at e
  exact h e.1

/-- What may follow a posting. -/
def AfterPosting (r : Str) : Prop := ¬ MetaStart r ∧ ¬ TagStart '^' r ∧ ¬ TagStart '#' r

/-- What is written below a posting: tags, links and metadata. -/
abbrev Below := List Str × List Str × List (Str × MetaValue)

/-- The text below a posting. -/
def belowT (b : Below) : Str := b.1.flatMap (tagT '#') ++ (b.2.1.flatMap (tagT '^') ++ b.2.2.flatMap lineT)

/-- Made of words and values which can be read back. -/
def BelowOk (b : Below) : Prop :=
  (∀ t ∈ b.1, TagName t) ∧ (∀ t ∈ b.2.1, TagName t) ∧ ∀ kv ∈ b.2.2, KeyName kv.1 ∧ WritableValue kv.2

theorem code_below : Code BelowOk belowT AfterPosting := by
  have h3 := code_lines.weaken (fun _ h => h) (F' := AfterPosting) fun r h => h.1
  have s1 := (code_tagLines '^').seq h3 fun l r hl hr => by
    rcases lines_start (r := r) hl with h | h
    · rw [h]; exact hr.2.1
    · exact metaStart_not_tagStart (Or.inr rfl) h
  exact (code_tagLines '#').seq s1 fun l r hl hr => by
    rw [List.append_assoc]
    rcases tagLines_start (p := '^') (r := l.2.flatMap lineT ++ r) hl.1 with h | h
    · rw [h]
      rcases lines_start (r := r) hl.2 with h | h
      · rw [h]; exact hr.2.2
      · exact metaStart_not_tagStart (Or.inl rfl) h
    · exact tagStart_not_tagStart (by decide) h

/-- The flag and account of a posting. -/
def headT (h : Option Str × Str) : Str :=
  match h.1 with
  | some f => f ++ ' ' :: h.2
  | none => h.2

theorem code_head : Code (fun h : Option Str × Str => (∀ f ∈ h.1, FlagName f) ∧ AccountName h.2) headT (Follow WordEnd) := by
  rintro ⟨f, a⟩ ⟨f', a'⟩ r r' ⟨h1, h2⟩ ⟨h1', h2'⟩ h3 h4 e
  dsimp only at h1 h2 h1' h2'
  have word := code_delim WordEnd
  cases f with
  | none =>
    cases f' with
    | none =>
      obtain ⟨e1, e2⟩ := word a a' r r' (word_chars h2.1) (word_chars h2'.1) h3 h4 e
      change a = a' at e1
      exact ⟨by rw [e1], e2⟩
    | some f' =>
      have e' : a ++ r = f' ++ (' ' :: a' ++ r') := by simpa [headT] using e
      obtain ⟨rfl, -⟩ := word a f' r _ (word_chars h2.1) (word_chars (h1' f' rfl).1) h3 ⟨_, _, rfl, Or.inl rfl⟩ e'
      exact absurd h2.2.1 (h1' a rfl).2.1
  | some f =>
    cases f' with
    | none =>
      have e' : f ++ (' ' :: a ++ r) = a' ++ r' := by simpa [headT] using e
      obtain ⟨rfl, -⟩ := word f a' _ r' (word_chars (h1 f rfl).1) (word_chars h2'.1) ⟨_, _, rfl, Or.inl rfl⟩ h4 e'
      exact absurd h2'.2.1 (h1 f rfl).2.1
    | some f' =>
      have e' : f ++ (' ' :: (a ++ r)) = f' ++ (' ' :: (a' ++ r')) := by simpa [headT] using e
      obtain ⟨rfl, e2⟩ := word f f' _ _ (word_chars (h1 f rfl).1) (word_chars (h1' f' rfl).1) ⟨_, _, rfl, Or.inl rfl⟩
        ⟨_, _, rfl, Or.inl rfl⟩ e'
      obtain ⟨e3, e4⟩ := word a a' r r' (word_chars h2.1) (word_chars h2'.1) h3 h4 (List.cons.inj e2).2
      change a = a' at e3
      exact ⟨by rw [e3], e4⟩

/-- The optional parts of a posting's line. -/
abbrev Parts := Option Dec × Option Str × Option Raw.CostSpec × Option Raw.PriceSpec

/-- Their text. -/
def partsT (p : Parts) : Str :=
  optWord (str% " ") decText p.1 ++ (optWord (str% " ") (fun s => s) p.2.1 ++ (optWord (str% " ") costT p.2.2.1 ++
    optWord (str% " ") priceT p.2.2.2))

/-- Made of words and values which can be read back. -/
def PartsOk (p : Parts) : Prop :=
  (∀ a ∈ p.1, True) ∧ (∀ c ∈ p.2.1, CurrencyName c) ∧ (∀ c ∈ p.2.2.1, WritableCost c) ∧ ∀ c ∈ p.2.2.2, WritablePrice c

theorem noWord_newline {S : Char → Prop} {r : Str} (h : Follow (· = '\n') r) : NoWord (str% " ") S r := by
  obtain ⟨c, s, rfl, rfl⟩ := h
  exact fun c s e => by simp at e

theorem currency_head {s : Str} (h : CurrencyName s) : ∃ c r, s = c :: r ∧ ¬ Special c := h.2.2.2.2.1

theorem code_parts : Code PartsOk partsT (Follow (· = '\n')) := by
  have hp : Code (fun o : Option Raw.PriceSpec => ∀ a ∈ o, WritablePrice a) (optWord (str% " ") priceT) (Follow (· = '\n')) :=
    (code_opt (str% " ") (fun _ => True) code_price fun a _ => ⟨_, _, rfl, trivial⟩).weaken (fun _ h => h) fun r hr => ⟨hr, noWord_newline hr⟩
  have hc : Code (fun o : Option Raw.CostSpec => ∀ a ∈ o, WritableCost a) (optWord (str% " ") costT) (NoWord (str% " ") (· = '{')) :=
    (code_opt (str% " ") (· = '{') code_cost fun a _ => ⟨_, _, rfl, rfl⟩).weaken (fun _ h => h) fun r hr => ⟨trivial, hr⟩
  have hu : Code (fun o : Option Str => ∀ a ∈ o, CurrencyName a) (optWord (str% " ") fun s => s)
      (fun r => Follow WordEnd r ∧ NoWord (str% " ") (fun c => ¬ Special c) r) :=
    code_opt (P := CurrencyName) (f := fun s => s) (str% " ") (fun c => ¬ Special c) (code_str WordEnd fun s hs => word_chars hs.1)
      fun a ha => currency_head ha
  have hn : Code (fun o : Option Dec => ∀ a ∈ o, True) (optWord (str% " ") decText) (fun r => Follow WordEnd r ∧ NoWord (str% " ") NumHead r) :=
    code_opt (P := fun _ => True) (str% " ") NumHead (code_dec _ (by rintro c (rfl | rfl) <;> decide)) fun a _ => decText_head a
  have follow : ∀ {α : Type} {f : α → Str} {o : Option α} {r : Str}, Follow WordEnd r → Follow WordEnd (optWord (str% " ") f o ++ r) :=
    fun h => follow_opt h ⟨_, _, rfl, Or.inl rfl⟩
  have s1 := hc.seq hp fun o r ho hr => noWord_opt (noWord_newline hr) ho fun a _ => ⟨_, _, rfl, by decide⟩
  have s2 := hu.seq s1 fun o r ho hr => by
    simp only [List.append_assoc]
    exact ⟨follow (follow (follow_mono (fun _ h => Or.inr h) hr)),
      noWord_opt (noWord_opt (noWord_newline hr) ho.2 fun a _ => ⟨_, _, rfl, by decide⟩) ho.1 fun a _ => ⟨_, _, rfl, by decide⟩⟩
  exact hn.seq s2 fun o r ho hr => by
    simp only [List.append_assoc]
    refine ⟨follow (follow (follow (follow_mono (fun _ h => Or.inr h) hr))), ?_⟩
    refine noWord_opt (noWord_opt (noWord_opt (noWord_newline hr) ho.2.2 fun a _ => ⟨_, _, rfl, ?_⟩) ho.2.1 fun a _ => ⟨_, _, rfl, ?_⟩) ho.1
      fun a ha => ?_
    · unfold NumHead; decide
    · unfold NumHead; decide
    · obtain ⟨c, s, hs, hc⟩ := currency_head ha
      exact ⟨c, s, hs, (special_heads hc).2.2.2.2.2.2.2.2.2.2.2⟩

/-- What the text of a posting tells. -/
abbrev Post := (Option Str × Str) × Parts × Below

/-- The text of a posting. -/
def postT (p : Post) : Str := str% "  " ++ (headT p.1 ++ (partsT p.2.1 ++ (['\n'] ++ belowT p.2.2)))

/-- Made of words and values which can be read back. -/
def PostOk (p : Post) : Prop := ((∀ f ∈ p.1.1, FlagName f) ∧ AccountName p.1.2) ∧ PartsOk p.2.1 ∧ BelowOk p.2.2

theorem partsT_follow (p : Parts) {r : Str} (h : Follow WordEnd r) : Follow WordEnd (partsT p ++ r) := by
  unfold partsT
  simp only [List.append_assoc]
  exact follow_opt (follow_opt (follow_opt (follow_opt h ⟨_, _, rfl, Or.inl rfl⟩) ⟨_, _, rfl, Or.inl rfl⟩) ⟨_, _, rfl, Or.inl rfl⟩)
    ⟨_, _, rfl, Or.inl rfl⟩

theorem code_post : Code PostOk postT AfterPosting := by
  have s1 := code_parts.seq (code_below.lead ['\n']) fun b r _ _ => ⟨_, _, rfl, rfl⟩
  exact (code_head.seq s1 fun p r _ _ => by
    rw [List.append_assoc]
    exact partsT_follow _ ⟨_, _, rfl, Or.inr rfl⟩).lead (str% "  ")

/-- The text of a posting begins neither as metadata do, nor as a tag or link does. -/
theorem post_after {p : Post} (h : PostOk p) (r : Str) : AfterPosting (postT p ++ r) := by
  obtain ⟨⟨f, a⟩, parts, below⟩ := p
  obtain ⟨⟨hf, ha⟩, -⟩ := h
  have key : ∀ x : Str, ∃ c s, headT (f, a) ++ x = c :: s ∧ ¬ Lower c ∧ c ≠ '^' ∧ (c = '#' → ∃ s', s = ' ' :: s') := by
    intro x
    cases f with
    | none =>
      obtain ⟨-, -, c, s, hc, hs, hl⟩ := ha
      dsimp only at hc
      subst hc
      exact ⟨c, s ++ x, rfl, hl, (special_heads hs).2.2.1, fun e => absurd e (special_heads hs).2.1⟩
    | some f =>
      obtain ⟨-, -, c, s, rfl, hl, h1, h2⟩ := hf f rfl
      refine ⟨c, s ++ ' ' :: a ++ x, by simp [headT], hl, h1, fun e => ?_⟩
      rw [h2 e]
      exact ⟨a ++ x, rfl⟩
  obtain ⟨c, s, e, h1, h2, h3⟩ := key (partsT parts ++ (['\n'] ++ belowT below) ++ r)
  have e' : postT ((f, a), parts, below) ++ r = ' ' :: ' ' :: c :: s := by
    rw [← e]
    simp [postT]
  rw [e']
  refine ⟨?_, ?_, ?_⟩
  · rintro ⟨c', s', e2, hl⟩
    simp only [List.cons.injEq, true_and] at e2
    exact h1 (e2.1 ▸ hl)
  · rintro ⟨c', s', e2, -⟩
    simp only [List.cons.injEq, true_and] at e2
    exact h2 e2.1
  · rintro ⟨c', s', e2, hn⟩
    simp only [List.cons.injEq, true_and] at e2
    obtain ⟨t, rfl⟩ := h3 e2.1
    simp only [List.cons.injEq] at e2
    exact hn e2.2.1.symm

/-- What may follow a directive: anything which does not begin with a blank. -/
def Unindented (r : Str) : Prop := ∀ s, r ≠ ' ' :: s

theorem Unindented.after {r : Str} (h : Unindented r) : AfterPosting r := by
  refine ⟨?_, ?_, ?_⟩ <;> rintro ⟨c, s, e, -⟩ <;> exact h _ e

theorem code_posts : Code (fun l : List Post => ∀ p ∈ l, PostOk p) (fun l => l.flatMap postT) Unindented := by
  refine (code_list code_post (fun r => ∃ s, r = ' ' :: s) (fun p r _ _ => ⟨_, rfl⟩) fun p r h _ => post_after h r).weaken (fun _ h => h)
    fun r hr => ⟨hr.after, fun ⟨s, e⟩ => hr s e⟩

/-- What is written after the fields of a directive. -/
abbrev Rest := List Str × List Str × List (Str × MetaValue) × List Post

/-- Its text. -/
def restT (x : Rest) : Str :=
  x.1.flatMap (inlineT '#') ++ (x.2.1.flatMap (inlineT '^') ++ (['\n'] ++ (x.2.2.1.flatMap lineT ++ x.2.2.2.flatMap postT)))

/-- Made of words and values which can be read back. -/
def RestOk (x : Rest) : Prop :=
  (∀ t ∈ x.1, TagName t) ∧ (∀ t ∈ x.2.1, TagName t) ∧ (∀ kv ∈ x.2.2.1, KeyName kv.1 ∧ WritableValue kv.2) ∧ ∀ p ∈ x.2.2.2, PostOk p

theorem code_rest : Code RestOk restT Unindented := by
  have s1 := code_lines.seq code_posts fun l r hl hr => by
    cases l with
    | nil => exact hr.after.1
    | cons p l =>
      rw [List.flatMap_cons, List.append_assoc]
      exact (post_after (hl p (by simp)) _).1
  have s2 := (code_inline '^').seq (s1.lead ['\n']) fun l r hl hr => ⟨⟨_, _, rfl, Or.inr rfl⟩, by rintro ⟨s, e⟩; simp at e⟩
  exact (code_inline '#').seq s2 fun l r hl hr => by
    rw [List.append_assoc]
    cases l.1 with
    | nil => exact ⟨⟨_, _, rfl, Or.inr rfl⟩, by rintro ⟨s, e⟩; simp at e⟩
    | cons t l => exact ⟨⟨_, _, rfl, Or.inl rfl⟩, by rintro ⟨s, e⟩; simp [inlineT] at e⟩

/-- What may follow the fields of a directive: a tag, a link or the line's end. -/
def AfterFields (r : Str) : Prop := (∃ s, r = '\n' :: s) ∨ (∃ s, r = ' ' :: '#' :: s) ∨ ∃ s, r = ' ' :: '^' :: s

theorem rest_after (x : Rest) (r : Str) : AfterFields (restT x ++ r) := by
  obtain ⟨a, b, y⟩ := x
  cases a with
  | cons t a => exact Or.inr (Or.inl ⟨t ++ _, by simp only [restT, List.flatMap_cons, inlineT, List.append_assoc, List.cons_append]; rfl⟩)
  | nil =>
    cases b with
    | cons t b =>
      exact Or.inr (Or.inr ⟨t ++ _, by
        simp only [restT, List.flatMap_nil, List.flatMap_cons, inlineT, List.append_assoc, List.cons_append, List.nil_append]; rfl⟩)
    | nil => exact Or.inl ⟨_, rfl⟩

theorem AfterFields.follow {r : Str} (h : AfterFields r) : Follow WordEnd r := by
  rcases h with ⟨s, rfl⟩ | ⟨s, rfl⟩ | ⟨s, rfl⟩
  · exact ⟨_, _, rfl, Or.inr rfl⟩
  · exact ⟨_, _, rfl, Or.inl rfl⟩
  · exact ⟨_, _, rfl, Or.inl rfl⟩

theorem AfterFields.noWord {S : Char → Prop} (h1 : ¬ S '#') (h2 : ¬ S '^') {r : Str} (h : AfterFields r) : NoWord (str% " ") S r := by
  intro c s e
  rcases h with ⟨s', rfl⟩ | ⟨s', rfl⟩ | ⟨s', rfl⟩ <;> simp only [List.cons_append, List.nil_append, List.cons.injEq, true_and] at e
  · exact absurd e.1 (by decide)
  · rw [← e.1]; exact h1
  · rw [← e.1]; exact h2

/-- The word after the date. -/
def kindWord : Raw.Variant → Str
  | .transaction t => t.flag
  | .price _ => str% "price"
  | .balance _ => str% "balance"
  | .opn _ => str% "open"
  | .close _ => str% "close"
  | .commodity _ => str% "commodity"
  | .pad _ => str% "pad"
  | .document _ => str% "document"
  | .note _ => str% "note"
  | .event _ => str% "event"
  | .query _ => str% "query"
  | .custom _ => str% "custom"

/-- The kind of a directive. -/
def kindNo : Raw.Variant → Nat
  | .transaction _ => 0
  | .price _ => 1
  | .balance _ => 2
  | .opn _ => 3
  | .close _ => 4
  | .commodity _ => 5
  | .pad _ => 6
  | .document _ => 7
  | .note _ => 8
  | .event _ => 9
  | .query _ => 10
  | .custom _ => 11

/-- The kind which a word after the date means. -/
def wordKind (w : Str) : Nat :=
  if w = str% "price" then 1 else if w = str% "balance" then 2 else if w = str% "open" then 3 else if w = str% "close" then 4
  else if w = str% "commodity" then 5 else if w = str% "pad" then 6 else if w = str% "document" then 7
  else if w = str% "note" then 8 else if w = str% "event" then 9 else if w = str% "query" then 10
  else if w = str% "custom" then 11 else 0

theorem wordKind_eq {v : Raw.Variant} (h : WritableVariant v) : wordKind (kindWord v) = kindNo v := by
  cases v <;> try rfl
  rename_i t
  obtain ⟨⟨-, -, c, s, hf, hl, -⟩, -⟩ := h
  have key : ∀ w : Str, (∃ c s, w = c :: s ∧ Lower c) → t.flag ≠ w := by
    rintro w ⟨c', s', rfl, hc⟩ e
    rw [hf] at e
    obtain ⟨rfl, -⟩ := List.cons.inj e
    exact hl hc
  change wordKind t.flag = 0
  unfold wordKind
  rw [if_neg (key _ ⟨_, _, rfl, by decide⟩), if_neg (key _ ⟨_, _, rfl, by decide⟩), if_neg (key _ ⟨_, _, rfl, by decide⟩),
    if_neg (key _ ⟨_, _, rfl, by decide⟩), if_neg (key _ ⟨_, _, rfl, by decide⟩), if_neg (key _ ⟨_, _, rfl, by decide⟩),
    if_neg (key _ ⟨_, _, rfl, by decide⟩), if_neg (key _ ⟨_, _, rfl, by decide⟩), if_neg (key _ ⟨_, _, rfl, by decide⟩),
    if_neg (key _ ⟨_, _, rfl, by decide⟩), if_neg (key _ ⟨_, _, rfl, by decide⟩)]

theorem kindWord_word {v : Raw.Variant} (h : WritableVariant v) : Word (kindWord v) := by
  cases v <;> first | exact h.1.1 | simp [Word, kindWord]

/-- A word after a blank. -/
def wT (s : Str) : Str := str% " " ++ s

/-- A number after a blank. -/
def nT (d : Dec) : Str := str% " " ++ decText d

/-- A quoted text after a blank. -/
def qT (s : Str) : Str := str% " " ++ ('"' :: s ++ ['"'])

theorem code_wT {P : Str → Prop} (h : ∀ s, P s → Word s) : Code P wT (Follow WordEnd) :=
  (code_str WordEnd fun s hs => word_chars (h s hs)).lead (str% " ")

theorem code_nT : Code (fun _ => True) nT (Follow WordEnd) :=
  (code_dec WordEnd (by rintro c (rfl | rfl) <;> decide)).lead (str% " ")

theorem code_qT : Code NoQuotes qT (fun _ => True) := code_quoted.lead (str% " ")

theorem wT_follow (s r : Str) : Follow WordEnd (wT s ++ r) := ⟨_, _, rfl, Or.inl rfl⟩

theorem nT_follow (d : Dec) (r : Str) : Follow WordEnd (nT d ++ r) := ⟨_, _, rfl, Or.inl rfl⟩

theorem qT_follow (s r : Str) : Follow WordEnd (qT s ++ r) := ⟨_, _, rfl, Or.inl rfl⟩

/-- The name of a booking method in a beanfile. -/
def bookingWord : Booking → Str
  | .strict => str% "STRICT"
  | .strictWithSize => str% "STRICT_WITH_SIZE"
  | .none => str% "NONE"
  | .average => str% "AVERAGE"
  | .fifo => str% "FIFO"
  | .lifo => str% "LIFO"
  | .hifo => str% "HIFO"

/-- The fields of a directive in its first line. -/
def fieldsT : Raw.Variant → Str
  | .transaction t => (t.payee.toList ++ t.narration.toList).flatMap qT
  | .price p => wT p.cur ++ (nT p.price.perUnit ++ wT p.price.cur)
  | .balance b => wT b.acc ++ (nT b.units ++ (wT b.cur ++ optWord (str% " ~ ") decText b.tolerance))
  | .opn o => wT o.acc ++ (optWord (str% " ") (fun l => joinComma (sortBy cmpStr l)) o.currencies ++
      optWord (str% " ") (fun b => '"' :: bookingWord b ++ ['"']) o.booking)
  | .close c => wT c.acc
  | .commodity c => wT c.cur
  | .pad p => wT p.acc ++ wT p.source
  | .document d => wT d.acc ++ qT d.path
  | .note n => wT n.acc ++ qT n.comment
  | .event e => qT e.type_ ++ qT e.description
  | .query q => qT q.name ++ qT q.content
  | .custom _ => []

/-- The same fields apart from the postings. -/
def SameFields : Raw.Variant → Raw.Variant → Prop
  | .transaction t, .transaction t' => t.flag = t'.flag ∧ t.payee = t'.payee ∧ t.narration = t'.narration
  | .opn o, .opn o' => o.acc = o'.acc ∧ SameElements o.currencies o'.currencies ∧ o.booking = o'.booking
  | v, v' => v = v'

theorem joinComma_inj {l l' : List Str} (h : l ≠ []) (h' : l' ≠ []) (hl : ∀ s ∈ l, ',' ∉ s) (hl' : ∀ s ∈ l', ',' ∉ s)
    (e : joinComma l = joinComma l') : l = l' := by
  have comma : ∀ {a b x y : Str}, ',' ∉ a → ',' ∉ b → a ++ ',' :: x = b ++ ',' :: y → a = b ∧ x = y := by
    intro a b x y ha hb e
    obtain ⟨e1, e2⟩ := code_delim (· = ',') a b _ _ (fun c hc e => ha (e ▸ hc)) (fun c hc e => hb (e ▸ hc)) ⟨_, _, rfl, rfl⟩ ⟨_, _, rfl, rfl⟩ e
    exact ⟨e1, (List.cons.inj e2).2⟩
  induction l generalizing l' with
  | nil => exact absurd rfl h
  | cons a l ih =>
    cases l' with
    | nil => exact absurd rfl h'
    | cons b l' =>
      cases l with
      | nil =>
        cases l' with
        | nil => simp only [joinComma] at e; rw [e]
        | cons b' l' =>
          simp only [joinComma] at e
          exact absurd (by rw [e]; simp) (hl a (by simp))
      | cons a' l =>
        cases l' with
        | nil =>
          simp only [joinComma] at e
          exact absurd (by rw [← e]; simp) (hl' b (by simp))
        | cons b' l' =>
          simp only [joinComma] at e
          obtain ⟨rfl, e2⟩ := comma (hl a (by simp)) (hl' b (by simp)) e
          rw [ih (by simp) (by simp) (fun s hs => hl s (by simp [hs])) (fun s hs => hl' s (by simp [hs])) e2]

theorem joinComma_mem {l : List Str} {c : Char} (hc : c ∈ joinComma l) : c = ',' ∨ ∃ s ∈ l, c ∈ s := by
  induction l with
  | nil => cases hc
  | cons a l ih =>
    cases l with
    | nil => exact Or.inr ⟨a, by simp, hc⟩
    | cons b l =>
      simp only [joinComma, List.mem_append, List.mem_cons] at hc
      rcases hc with hc | rfl | hc
      · exact Or.inr ⟨a, by simp, hc⟩
      · exact Or.inl rfl
      · rcases ih hc with h | ⟨s, hs, h⟩
        · exact Or.inl h
        · exact Or.inr ⟨s, by simp [List.mem_cons.1 hs], h⟩

theorem joinComma_head {a : Str} {l : List Str} {c : Char} {s : Str} (h : a = c :: s) : ∃ t, joinComma (a :: l) = c :: t := by
  cases l with
  | nil => exact ⟨s, h⟩
  | cons b l => exact ⟨s ++ ',' :: joinComma (b :: l), by simp [joinComma, h]⟩

theorem fields_after {v v' : Raw.Variant} {r r' : Str} (h : WritableVariant v) (h' : WritableVariant v') (hr : AfterFields r)
    (hr' : AfterFields r') (e : kindWord v ++ (fieldsT v ++ r) = kindWord v' ++ (fieldsT v' ++ r')) : SameFields v v' ∧ r = r' := by
  have hfol : ∀ (v : Raw.Variant) {r : Str}, AfterFields r → Follow WordEnd (fieldsT v ++ r) := by
    intro v r hr
    cases v <;> try (first | exact hr.follow | exact ⟨_, _, rfl, Or.inl rfl⟩)
    rename_i t
    cases hp : t.payee.toList ++ t.narration.toList with
    | nil => simp only [fieldsT, hp]; exact hr.follow
    | cons a l => simp only [fieldsT, hp]; exact ⟨_, _, rfl, Or.inl rfl⟩
  obtain ⟨ek, ef⟩ := code_delim WordEnd _ _ _ _ (word_chars (kindWord_word h)) (word_chars (kindWord_word h')) (hfol v hr) (hfol v' hr') e
  have hk : kindNo v = kindNo v' := by rw [← wordKind_eq h, ← wordKind_eq h', ek]
  have acc := code_wT (P := AccountName) fun s hs => hs.1
  have cur := code_wT (P := CurrencyName) fun s hs => hs.1
  have hq := code_qT.weaken (fun _ h => h) (F' := AfterFields) fun _ _ => trivial
  have accq := acc.seq hq fun s r _ _ => qT_follow s r
  have qq := code_qT.seq hq fun _ _ _ _ => trivial
  cases v with
  | transaction t =>
    cases v' <;> simp only [kindNo] at hk <;> try omega
    rename_i t'
    have hl : Code (fun l : List Str => ∀ s ∈ l, NoQuotes s) (fun l => l.flatMap qT) (fun r => NoWord (str% " ") (· = '"') r) :=
      (code_list code_qT (fun r => ¬ NoWord (str% " ") (· = '"') r) (fun s r _ _ hn => hn _ _ rfl rfl) fun _ _ _ _ => trivial).weaken
        (fun _ h => h) fun r hr => ⟨trivial, fun hn => hn hr⟩
    obtain ⟨-, p1, p2, p3, -⟩ := h
    obtain ⟨-, p1', p2', p3', -⟩ := h'
    obtain ⟨e1, e2⟩ := hl _ _ r r' (fun s hs => (List.mem_append.1 hs).elim (fun hs => p1 s (by simpa using hs)) fun hs => p2 s (by simpa using hs))
      (fun s hs => (List.mem_append.1 hs).elim (fun hs => p1' s (by simpa using hs)) fun hs => p2' s (by simpa using hs))
      (hr.noWord (by decide) (by decide)) (hr'.noWord (by decide) (by decide)) ef
    refine ⟨⟨ek, ?_⟩, e2⟩
    revert e1 p3 p3'
    cases t.payee <;> cases t.narration <;> cases t'.payee <;> cases t'.narration <;> simp
  | price p =>
    cases v' <;> simp only [kindNo] at hk <;> try omega
    rename_i p'
    have hc := cur.seq (code_nT.seq cur fun s r _ _ => wT_follow s r) fun s r _ _ => by rw [List.append_assoc]; exact nT_follow _ _
    obtain ⟨e1, e2⟩ := hc (p.cur, p.price.perUnit, p.price.cur) (p'.cur, p'.price.perUnit, p'.price.cur) r r' ⟨h.1, trivial, h.2.1⟩
      ⟨h'.1, trivial, h'.2.1⟩ hr.follow hr'.follow ef
    obtain ⟨c, ⟨n, t, c'⟩⟩ := p
    obtain ⟨c2, ⟨n2, t2, c2'⟩⟩ := p'
    obtain ⟨-, -, rfl⟩ := h
    obtain ⟨-, -, rfl⟩ := h'
    simp only [Prod.mk.injEq] at e1
    obtain ⟨rfl, rfl, rfl⟩ := e1
    exact ⟨rfl, e2⟩
  | balance b =>
    cases v' <;> simp only [kindNo] at hk <;> try omega
    rename_i b'
    have ht : Code (fun o : Option Dec => ∀ a ∈ o, True) (optWord (str% " ~ ") decText) AfterFields :=
      (code_opt (P := fun _ => True) (str% " ~ ") (fun _ => True) (code_dec WordEnd (by rintro c (rfl | rfl) <;> decide))
        fun a _ => by obtain ⟨c, s, hs, -⟩ := decText_head a; exact ⟨c, s, hs, trivial⟩).weaken (fun _ h => h) fun r hr => by
          refine ⟨hr.follow, fun c s e _ => ?_⟩
          exact (hr.noWord (S := (· = '~')) (by decide) (by decide)) '~' (' ' :: c :: s) e rfl
    have hc := acc.seq (code_nT.seq (cur.seq ht fun o r _ hr => follow_opt hr.follow ⟨_, _, rfl, Or.inl rfl⟩)
      fun s r _ _ => by rw [List.append_assoc]; exact wT_follow _ _) fun s r _ _ => by rw [List.append_assoc]; exact nT_follow _ _
    obtain ⟨e1, e2⟩ := hc (b.acc, b.units, b.cur, b.tolerance) (b'.acc, b'.units, b'.cur, b'.tolerance) r r' ⟨h.1, trivial, h.2, fun _ _ => trivial⟩
      ⟨h'.1, trivial, h'.2, fun _ _ => trivial⟩ hr hr' ef
    obtain ⟨a, u, c, t⟩ := b
    obtain ⟨a2, u2, c2, t2⟩ := b'
    simp only [Prod.mk.injEq] at e1
    obtain ⟨rfl, rfl, rfl, rfl⟩ := e1
    exact ⟨rfl, e2⟩
  | opn o =>
    cases v' <;> simp only [kindNo] at hk <;> try omega
    rename_i o'
    have hb : Code (fun o : Option Booking => ∀ a ∈ o, True) (optWord (str% " ") fun b => '"' :: bookingWord b ++ ['"']) AfterFields :=
      (code_opt (P := fun _ : Booking => True) (str% " ") (· = '"') (code_quoted.via bookingWord (fun _ _ => rfl)
        (fun b _ => by cases b <;> decide) fun b b' _ _ e => by cases b <;> cases b' <;> first | rfl | exact absurd e (by decide))
        fun a _ => ⟨_, _, rfl, rfl⟩).weaken (fun _ h => h) fun r hr => ⟨trivial, hr.noWord (by decide) (by decide)⟩
    have hj : Code (fun l : List Str => l ≠ [] ∧ ∀ c ∈ l, CurrencyName c) (fun l => joinComma l) (Follow WordEnd) := by
      refine code_word WordEnd (fun l hl c hc => ?_) fun l l' hl hl' e =>
        joinComma_inj hl.1 hl'.1 (fun s hs => (hl.2 s hs).2.2.1) (fun s hs => (hl'.2 s hs).2.2.1) e
      rcases joinComma_mem hc with rfl | ⟨s, hs, hc⟩
      · rintro (h | h) <;> exact absurd h (by decide)
      · exact word_chars (hl.2 s hs).1 c hc
    have ho : Code (fun o : Option (List Str) => ∀ l ∈ o, l ≠ [] ∧ ∀ c ∈ l, CurrencyName c) (optWord (str% " ") fun l => joinComma l)
        (fun r => Follow WordEnd r ∧ NoWord (str% " ") (fun c => ¬ Special c) r) :=
      code_opt (str% " ") (fun c => ¬ Special c) hj fun l hl => by
        cases l with
        | nil => exact absurd rfl hl.1
        | cons a l =>
          obtain ⟨c, s, hs, hc⟩ := currency_head (hl.2 a (by simp))
          obtain ⟨t, ht⟩ := joinComma_head (l := l) hs
          exact ⟨c, t, ht, hc⟩
    have hc := acc.seq (ho.seq hb fun o r _ hr => ⟨follow_opt hr.follow ⟨_, _, rfl, Or.inl rfl⟩,
        noWord_opt (P := fun _ => True) (hr.noWord (by decide) (by decide)) (fun _ _ => trivial) fun a _ => ⟨_, _, rfl, by decide⟩⟩)
      fun s r _ hr => by
        rw [List.append_assoc]
        exact follow_opt (follow_opt hr.follow ⟨_, _, rfl, Or.inl rfl⟩) ⟨_, _, rfl, Or.inl rfl⟩
    have sorted : ∀ o : Raw.Open, (∀ l ∈ o.currencies, l ≠ [] ∧ l.Nodup ∧ ∀ c ∈ l, CurrencyName c) →
        ∀ l ∈ o.currencies.map (sortBy cmpStr), l ≠ [] ∧ ∀ c ∈ l, CurrencyName c := by
      intro o ho l hl
      obtain ⟨l0, h0, rfl⟩ := Option.mem_map.1 hl
      obtain ⟨a1, a2, a3⟩ := ho l0 h0
      refine ⟨fun e => a1 ?_, fun c hc => a3 c (mem_sortBy.1 hc)⟩
      have := sortBy_perm (cmp := cmpStr) l0
      rw [e] at this
      exact this.symm.eq_nil
    have text : ∀ o : Raw.Open, optWord (str% " ") (fun l => joinComma (sortBy cmpStr l)) o.currencies =
        optWord (str% " ") (fun l => joinComma l) (o.currencies.map (sortBy cmpStr)) := by
      intro o
      cases o.currencies <;> rfl
    simp only [fieldsT, text] at ef
    obtain ⟨e1, e2⟩ := hc (o.acc, o.currencies.map (sortBy cmpStr), o.booking) (o'.acc, o'.currencies.map (sortBy cmpStr), o'.booking) r r'
      ⟨h.1, sorted o h.2, fun _ _ => trivial⟩ ⟨h'.1, sorted o' h'.2, fun _ _ => trivial⟩ hr hr' ef
    simp only [Prod.mk.injEq] at e1
    refine ⟨⟨e1.1, fun x => ?_, e1.2.2⟩, e2⟩
    have e3 := e1.2.1
    cases ha : o.currencies with
    | none =>
      cases hb : o'.currencies with
      | none => exact Iff.rfl
      | some l => rw [ha, hb] at e3; cases e3
    | some l =>
      cases hb : o'.currencies with
      | none => rw [ha, hb] at e3; cases e3
      | some l' =>
        rw [ha, hb] at e3
        have e4 : sortBy cmpStr l = sortBy cmpStr l' := Option.some.inj e3
        simp only [Option.getD_some]
        rw [← mem_sortBy (cmp := cmpStr) (l := l), e4, mem_sortBy]
  | close c =>
    cases v' <;> simp only [kindNo] at hk <;> try omega
    rename_i c'
    obtain ⟨e1, e2⟩ := acc c.acc c'.acc r r' h h' hr.follow hr'.follow ef
    obtain ⟨a⟩ := c
    obtain ⟨b⟩ := c'
    change a = b at e1
    subst e1
    exact ⟨rfl, e2⟩
  | commodity c =>
    cases v' <;> simp only [kindNo] at hk <;> try omega
    rename_i c'
    obtain ⟨e1, e2⟩ := cur c.cur c'.cur r r' h h' hr.follow hr'.follow ef
    obtain ⟨a⟩ := c
    obtain ⟨b⟩ := c'
    change a = b at e1
    subst e1
    exact ⟨rfl, e2⟩
  | pad p =>
    cases v' <;> simp only [kindNo] at hk <;> try omega
    rename_i p'
    obtain ⟨e1, e2⟩ := (acc.seq acc fun s r _ _ => wT_follow s r) (p.acc, p.source) (p'.acc, p'.source) r r' h h' hr.follow hr'.follow ef
    obtain ⟨a, b⟩ := p
    obtain ⟨a', b'⟩ := p'
    simp only [Prod.mk.injEq] at e1
    obtain ⟨rfl, rfl⟩ := e1
    exact ⟨rfl, e2⟩
  | document p =>
    cases v' <;> simp only [kindNo] at hk <;> try omega
    rename_i p'
    obtain ⟨e1, e2⟩ := accq (p.acc, p.path) (p'.acc, p'.path) r r' h h' hr hr' ef
    obtain ⟨a, b⟩ := p
    obtain ⟨a', b'⟩ := p'
    simp only [Prod.mk.injEq] at e1
    obtain ⟨rfl, rfl⟩ := e1
    exact ⟨rfl, e2⟩
  | note p =>
    cases v' <;> simp only [kindNo] at hk <;> try omega
    rename_i p'
    obtain ⟨e1, e2⟩ := accq (p.acc, p.comment) (p'.acc, p'.comment) r r' h h' hr hr' ef
    obtain ⟨a, b⟩ := p
    obtain ⟨a', b'⟩ := p'
    simp only [Prod.mk.injEq] at e1
    obtain ⟨rfl, rfl⟩ := e1
    exact ⟨rfl, e2⟩
  | event p =>
    cases v' <;> simp only [kindNo] at hk <;> try omega
    rename_i p'
    obtain ⟨e1, e2⟩ := qq (p.type_, p.description) (p'.type_, p'.description) r r' h h' hr hr' ef
    obtain ⟨a, b⟩ := p
    obtain ⟨a', b'⟩ := p'
    simp only [Prod.mk.injEq] at e1
    obtain ⟨rfl, rfl⟩ := e1
    exact ⟨rfl, e2⟩
  | query p =>
    cases v' <;> simp only [kindNo] at hk <;> try omega
    rename_i p'
    obtain ⟨e1, e2⟩ := qq (p.name, p.content) (p'.name, p'.content) r r' h h' hr hr' ef
    obtain ⟨a, b⟩ := p
    obtain ⟨a', b'⟩ := p'
    simp only [Prod.mk.injEq] at e1
    obtain ⟨rfl, rfl⟩ := e1
    exact ⟨rfl, e2⟩
  | custom c => exact h.elim

/-- The iteration order of sets is a rearrangement. -/
def Rearranges (ord : List Data → List Data) : Prop := ∀ l, (ord l).Perm l

/-- The string of a datum. -/
def plainStr : Data → Str
  | .str s => s
  | _ => []

/-- The elements of a set of strings in the order of iteration. -/
def listed (ord : List Data → List Data) (o : Option (List Str)) : List Str := (o.map fun l => (ord (l.map .str)).map plainStr).getD []

theorem map_plainStr_perm {ord : List Data → List Data} (h : Rearranges ord) (l : List Str) : ((ord (l.map .str)).map plainStr).Perm l := by
  have := (h (l.map .str)).map plainStr
  rw [List.map_map] at this
  have e : (plainStr ∘ Data.str) = id := rfl
  rwa [e, List.map_id] at this

theorem ord_eq {ord : List Data → List Data} (h : Rearranges ord) (l : List Str) :
    ord (l.map .str) = ((ord (l.map .str)).map plainStr).map .str := by
  rw [List.map_map]
  refine (List.map_id _).symm.trans (List.map_congr_left fun x hx => ?_)
  have := (h (l.map .str)).mem_iff.1 hx
  obtain ⟨s, -, rfl⟩ := List.mem_map.1 this
  rfl

theorem mem_listed {ord : List Data → List Data} (h : Rearranges ord) (o : Option (List Str)) (t : Str) :
    t ∈ listed ord o ↔ t ∈ o.getD [] := by
  cases o with
  | none => exact Iff.rfl
  | some l => exact (map_plainStr_perm h l).mem_iff

theorem elems_set {ord : List Data → List Data} (h : Rearranges ord) (o : Option (List Str)) :
    ((o.map (ofSet ord)).getD .nil).elems = (listed ord o).map .str := by
  cases o with
  | none => rfl
  | some l => exact ord_eq h l

/-- Metadata in the order in which they are printed. -/
def sorted (o : Option (List (Str × MetaValue))) : List (Str × MetaValue) :=
  (o.map fun l => (sortBy cmpStr (l.map Prod.fst)).map fun k => (k, (AMap.get l k).getD .null)).getD []

theorem get_of_mem {l : List (Str × MetaValue)} (h : (l.map Prod.fst).Nodup) {kv : Str × MetaValue} (hk : kv ∈ l) :
    AMap.get l kv.1 = some kv.2 := by
  induction l with
  | nil => cases hk
  | cons p l ih =>
    rw [List.map_cons, List.nodup_cons] at h
    rcases List.mem_cons.1 hk with rfl | hk
    · simp [AMap.get]
    · have hne : p.1 ≠ kv.1 := fun e => h.1 (e ▸ List.mem_map_of_mem hk)
      simp only [AMap.get]
      rw [if_neg hne]
      exact ih h.2 hk

theorem mem_sorted {o : Option (List (Str × MetaValue))} (h : ∀ l ∈ o, (l.map Prod.fst).Nodup) (kv : Str × MetaValue) :
    kv ∈ sorted o ↔ kv ∈ o.getD [] := by
  cases o with
  | none => exact Iff.rfl
  | some l =>
    have hn := h l rfl
    simp only [sorted, Option.map_some, Option.getD_some, List.mem_map, mem_sortBy]
    constructor
    · rintro ⟨k, ⟨kv', hk, rfl⟩, rfl⟩
      rw [get_of_mem hn hk]
      exact hk
    · intro hk
      exact ⟨kv.1, ⟨kv, hk, rfl⟩, by rw [get_of_mem hn hk]; rfl⟩

theorem get_ofMetadata (l : List (Str × MetaValue)) (k : Str) : (ofMetadata l).get k = ofMeta ((AMap.get l k).getD .null) := by
  induction l with
  | nil => rfl
  | cons p l ih =>
    simp only [ofMetadata, Data.get, List.map_cons, AMap.get] at ih ⊢
    split
    · rfl
    · exact ih

theorem metaLine_eq (txt : Data → Str) (l : List (Str × MetaValue)) (k : Str) :
    metaLine txt (str% "  ") (ofMetadata l) k = lineT (k, (AMap.get l k).getD .null) := by
  unfold metaLine
  rw [get_ofMetadata]
  generalize (AMap.get l k).getD .null = v
  have e : (if (ofMeta v).truthy then [' '] else []) ++ formatted txt (metaText txt (ofMeta v)) = metaVal v := by
    cases v <;> first | rfl | skip
    rename_i b
    cases b <;> rfl
  simp only [lineT, ← e, List.append_assoc]

theorem metaLines_eq (txt : Data → Str) (o : Option (List (Str × MetaValue))) :
    whenLet ((o.map ofMetadata).getD .nil) (metaLines txt (str% "  ")) = (sorted o).flatMap lineT := by
  cases o with
  | none => rfl
  | some l =>
    have e : (ofMetadata l).keys = l.map Prod.fst := by simp [ofMetadata, Data.keys, Function.comp_def]
    change metaLines txt _ (ofMetadata l) = _
    rw [metaLines, e, sorted]
    simp only [Option.map_some, Option.getD_some, List.flatMap_map]
    exact congrArg (List.flatMap · _) (funext fun k => metaLine_eq txt l k)

theorem tagLines_eq {ord : List Data → List Data} (h : Rearranges ord) (txt : Data → Str) (tags links : Option (List Str)) :
    tagLines txt (str% "  ") ((tags.map (ofSet ord)).getD .nil) ((links.map (ofSet ord)).getD .nil) =
      (listed ord tags).flatMap (tagT '#') ++ (listed ord links).flatMap (tagT '^') := by
  unfold tagLines
  rw [elems_set h, elems_set h, List.flatMap_map, List.flatMap_map]
  refine congr (congrArg _ (congrArg (List.flatMap · _) (funext fun t => ?_))) (congrArg (List.flatMap · _) (funext fun t => ?_)) <;>
    simp [tagT, prefixed, javaStr]

theorem tagsInline_eq {ord : List Data → List Data} (h : Rearranges ord) (txt : Data → Str) (tags links : Option (List Str)) :
    tagsInline txt ((tags.map (ofSet ord)).getD .nil) ((links.map (ofSet ord)).getD .nil) =
      (listed ord tags).flatMap (inlineT '#') ++ (listed ord links).flatMap (inlineT '^') := by
  unfold tagsInline words
  rw [elems_set h, elems_set h]
  simp only [List.map_map, List.flatMap_map]
  refine congr (congrArg _ (congrArg (List.flatMap · _) (funext fun t => ?_))) (congrArg (List.flatMap · _) (funext fun t => ?_)) <;>
    simp [inlineT, prefixed, printed, javaStr]

theorem costText_eq {c : Raw.CostSpec} (h : WritableCost c) (txt : Data → Str) : costText txt (ofCostSpec c) = costT c := by
  obtain ⟨per, total, cur, date, label, merge⟩ := c
  obtain ⟨h, -⟩ := h
  dsimp only at h
  unfold costText costT
  refine congrArg (fun s => ['{'] ++ dropLead s ++ ['}']) ?_
  simp only [ofCostSpec, Data.get, get_append, get_optEntry]
  rcases h with rfl | rfl <;> cases cur <;> cases date <;> cases label <;> cases merge <;> first
    | (cases total <;> simp [costItems, optWord, whenLet, Data.truthy, doubleQuote, javaStr, printed])
    | (cases per <;> simp [costItems, optWord, whenLet, Data.truthy, doubleQuote, javaStr, printed])

theorem priceText_eq {c : Raw.PriceSpec} (h : WritablePrice c) (txt : Data → Str) : priceText txt (ofPriceSpec c) = priceT c := by
  obtain ⟨per, total, cur⟩ := c
  obtain ⟨h, -⟩ := h
  dsimp only at h
  unfold priceText priceT
  simp only [ofPriceSpec, Data.get, get_append, get_optEntry]
  rcases h with rfl | rfl <;> cases cur <;> first
    | (cases total <;> simp [optWord, whenLet, Data.truthy, javaStr, printed])
    | (cases per <;> simp [optWord, whenLet, Data.truthy, javaStr, printed])

/-- What the text of a posting tells. -/
def postOf (ord : List Data → List Data) (p : Raw.PostingSpec) : Post :=
  ((p.flag, p.acc), (p.units, p.cur, p.costSpec, p.priceSpec), listed ord p.tags, listed ord p.links, sorted p.metadata)

theorem postingText_eq {ord : List Data → List Data} (h : Rearranges ord) (txt : Data → Str) {p : Raw.PostingSpec} (hp : WritablePosting p) :
    postingText txt (ofPosting ord p) = postT (postOf ord p) := by
  obtain ⟨-, -, -, hc, hpr, -⟩ := hp
  have g : ∀ k, (ofPosting ord p).get k =
      (AMap.get (optEntry (str% "span") p.span ofSpan ++ optEntry (str% "flag") p.flag .str ++ [(str% "acc", .str p.acc)] ++
      optEntry (str% "units") p.units .num ++ optEntry (str% "cur") p.cur .str ++
      optEntry (str% "cost-spec") p.costSpec ofCostSpec ++ optEntry (str% "price-spec") p.priceSpec ofPriceSpec ++
      optEntry (str% "tags") p.tags (ofSet ord) ++ optEntry (str% "links") p.links (ofSet ord) ++
      optEntry (str% "metadata") p.metadata ofMetadata) k).getD .nil := fun _ => rfl
  have g1 : (ofPosting ord p).get (str% "flag") = (p.flag.map .str).getD .nil := by
    rw [g]; simp [get_append, get_optEntry, AMap.get]
  have g2 : (ofPosting ord p).get (str% "acc") = .str p.acc := by rw [g]; simp [get_append, get_optEntry, AMap.get]
  have g3 : (ofPosting ord p).get (str% "units") = (p.units.map .num).getD .nil := by
    rw [g]; simp [get_append, get_optEntry, AMap.get]
  have g4 : (ofPosting ord p).get (str% "cur") = (p.cur.map .str).getD .nil := by rw [g]; simp [get_append, get_optEntry, AMap.get]
  have g5 : (ofPosting ord p).get (str% "cost") = .nil := by rw [g]; simp [get_append, get_optEntry, AMap.get]
  have g6 : (ofPosting ord p).get (str% "cost-spec") = (p.costSpec.map ofCostSpec).getD .nil := by
    rw [g]; simp [get_append, get_optEntry, AMap.get]
  have g7 : (ofPosting ord p).get (str% "price") = .nil := by rw [g]; simp [get_append, get_optEntry, AMap.get]
  have g8 : (ofPosting ord p).get (str% "price-spec") = (p.priceSpec.map ofPriceSpec).getD .nil := by
    rw [g]; simp [get_append, get_optEntry, AMap.get]
  have g9 : (ofPosting ord p).get (str% "tags") = (p.tags.map (ofSet ord)).getD .nil := by
    rw [g]; simp [get_append, get_optEntry, AMap.get]
  have g10 : (ofPosting ord p).get (str% "links") = (p.links.map (ofSet ord)).getD .nil := by
    rw [g]; simp [get_append, get_optEntry, AMap.get]
  have g11 : (ofPosting ord p).get (str% "metadata") = (p.metadata.map ofMetadata).getD .nil := by
    rw [g]; simp [get_append, get_optEntry, AMap.get]
  unfold postingText
  rw [g1, g2, g3, g4, g5, g6, g7, g8, g9, g10, g11, tagLines_eq h, metaLines_eq]
  have w1 : whenLet ((p.units.map .num).getD .nil) (fun x => ' ' :: javaStr txt x) = optWord (str% " ") decText p.units := by
    cases p.units <;> rfl
  have w2 : whenLet ((p.cur.map .str).getD .nil) (fun x => ' ' :: printed txt x) = optWord (str% " ") (fun s => s) p.cur := by
    cases p.cur <;> rfl
  have w3 : whenLet (Data.or .nil ((p.costSpec.map ofCostSpec).getD .nil)) (fun x => ' ' :: costText txt x) =
      optWord (str% " ") costT p.costSpec := by
    cases hx : p.costSpec with
    | none => rfl
    | some c =>
      simp only [optWord, ← costText_eq (hc c hx) txt]
      rfl
  have w4 : whenLet (Data.or .nil ((p.priceSpec.map ofPriceSpec).getD .nil)) (fun x => ' ' :: priceText txt x) =
      optWord (str% " ") priceT p.priceSpec := by
    cases hx : p.priceSpec with
    | none => rfl
    | some c =>
      simp only [optWord, ← priceText_eq (hpr c hx) txt]
      rfl
  have w5 : [' '] ++ whenLet ((p.flag.map .str).getD .nil) (fun x => ' ' :: printed txt x) ++ ' ' :: printed txt (.str p.acc) =
      str% "  " ++ headT (p.flag, p.acc) := by
    cases p.flag <;> simp [whenLet, Data.truthy, printed, javaStr, headT]
  rw [w1, w2, w3, w4, w5]
  simp only [postT, postOf, partsT, belowT, List.append_assoc]

/-- What is written after the fields of a directive. -/
def restOf (ord : List Data → List Data) (d : Raw.Directive) : Rest :=
  (listed ord d.tags, listed ord d.links, sorted d.metadata,
    match d.variant with
    | .transaction t => t.postings.map (postOf ord)
    | _ => [])

theorem doubleQuote_map (o : Option Str) : doubleQuote ((o.map .str).getD .nil) = match o with
    | some s => .str ('"' :: s ++ ['"'])
    | none => .bool false := by
  cases o <;> rfl

/-- The text of a directive. -/
theorem directiveText_eq {ord : List Data → List Data} (h : Rearranges ord) (txt : Data → Str) {d : Raw.Directive} (hd : Writable d) :
    directiveText txt (ofDirective ord d) =
      Wire.fmtDate d.date ++ (str% " " ++ (kindWord d.variant ++ (fieldsT d.variant ++ restT (restOf ord d)))) := by
  obtain ⟨-, -, -, -, hv⟩ := hd
  have g : ∀ k, (ofDirective ord d).get k = (AMap.get (optEntry (str% "span") d.span ofSpan ++ [(str% "date", .date d.date)] ++
      optEntry (str% "tags") d.tags (ofSet ord) ++ optEntry (str% "links") d.links (ofSet ord) ++
      optEntry (str% "metadata") d.metadata ofMetadata ++ ofVariant ord d.variant) k).getD .nil := fun _ => rfl
  have g1 : (ofDirective ord d).get (str% "date") = .date d.date := by
    rw [g]; simp [get_append, get_optEntry, AMap.get]
  have g2 : (ofDirective ord d).get (str% "tags") = (d.tags.map (ofSet ord)).getD .nil := by
    rw [g]; cases d.variant <;> simp [ofVariant, get_append, get_optEntry, AMap.get]
  have g3 : (ofDirective ord d).get (str% "links") = (d.links.map (ofSet ord)).getD .nil := by
    rw [g]; cases d.variant <;> simp [ofVariant, get_append, get_optEntry, AMap.get]
  have g4 : (ofDirective ord d).get (str% "metadata") = (d.metadata.map ofMetadata).getD .nil := by
    rw [g]; cases d.variant <;> simp [ofVariant, get_append, get_optEntry, AMap.get]
  have gv : ∀ k, k ≠ str% "span" → k ≠ str% "date" → k ≠ str% "tags" → k ≠ str% "links" → k ≠ str% "metadata" →
      (ofDirective ord d).get k = (AMap.get (ofVariant ord d.variant) k).getD .nil := by
    intro k k1 k2 k3 k4 k5
    rw [g]
    simp [get_append, get_optEntry, AMap.get, k1.symm, k2.symm, k3.symm, k4.symm, k5.symm]
  have body : ∀ (isTxn : Bool), isKw ((ofDirective ord d).get (str% "dct")) (str% "custom") = false →
      isKw ((ofDirective ord d).get (str% "dct")) (str% "txn") = isTxn →
      printed txt (dctType (ofDirective ord d)) = kindWord d.variant → kindFields txt (ofDirective ord d) = fieldsT d.variant →
      (if isTxn then ((ofDirective ord d).get (str% "postings")).elems.flatMap (postingText txt) else []) = (restOf ord d).2.2.2.flatMap postT →
      directiveText txt (ofDirective ord d) =
        Wire.fmtDate d.date ++ (str% " " ++ (kindWord d.variant ++ (fieldsT d.variant ++ restT (restOf ord d)))) := by
    intro isTxn e1 e2 e3 e4 e5
    unfold directiveText commonHeader
    rw [e1, e2, e3, e4, g1, g2, g3, g4, e5, metaLines_eq, tagsInline_eq h]
    simp [restT, restOf, javaStr]
  have gk : ∀ k, k ∉ [str% "span", str% "date", str% "tags", str% "links", str% "metadata"] →
      (ofDirective ord d).get k = (AMap.get (ofVariant ord d.variant) k).getD .nil := by
    intro k hk
    simp only [List.mem_cons, List.not_mem_nil, or_false, not_or] at hk
    exact gv k hk.1 hk.2.1 hk.2.2.1 hk.2.2.2.1 hk.2.2.2.2
  have dct := gk (str% "dct") (by decide)
  generalize hx : ofDirective ord d = x at *
  cases hvar : d.variant with
  | custom c => rw [hvar] at hv; exact hv.elim
  | transaction t =>
    rw [hvar] at dct gk hv
    have f1 := gk (str% "flag") (by decide)
    have f2 := gk (str% "payee") (by decide)
    have f3 := gk (str% "narration") (by decide)
    have f4 := gk (str% "postings") (by decide)
    simp [ofVariant, get_append, get_optEntry, AMap.get] at dct f1 f2 f3 f4
    rw [← hvar]
    refine body true (by rw [dct]; rfl) (by rw [dct]; rfl) ?_ ?_ ?_
    · rw [hvar]
      simp [dctType, dct, f1, Data.or, Data.truthy, printed, javaStr, kindWord]
    · rw [hvar]
      obtain ⟨-, -, -, hn, -⟩ := hv
      unfold kindFields
      rw [dct]
      simp only [if_true]
      unfold txnFields
      rw [f2, f3]
      simp only [fieldsT]
      revert hn
      cases t.payee <;> cases t.narration <;> simp +contextual [ doubleQuote, Data.truthy, words, printed, javaStr, qT]
    · rw [f4]
      simp only [restOf, hvar, if_true, Data.elems, List.flatMap_map]
      obtain ⟨-, -, -, -, hp⟩ := hv
      rw [List.flatMap_def, List.flatMap_def]
      exact congrArg List.flatten (List.map_congr_left fun p hm => postingText_eq h txt (hp p hm))
  | price p =>
    rw [hvar] at dct gk hv
    have f1 := gk (str% "cur") (by decide)
    have f2 := gk (str% "price") (by decide)
    simp [ofVariant, get_append, get_optEntry, AMap.get] at dct f1 f2
    rw [← hvar]
    refine body false (by rw [dct]; rfl) (by rw [dct]; rfl) ?_ ?_ (by simp [restOf, hvar])
    · rw [hvar]
      simp [dctType, dct, printed, javaStr, kindWord]
    · rw [hvar]
      unfold kindFields
      rw [dct]
      dsimp only
      rw [f1, f2]
      simp [fieldsT, words, printed, javaStr, wT, nT, ofPrice, Data.get, get_append, get_optEntry, AMap.get]
  | balance p =>
    rw [hvar] at dct gk hv
    have f1 := gk (str% "acc") (by decide)
    have f2 := gk (str% "units") (by decide)
    have f3 := gk (str% "cur") (by decide)
    have f4 := gk (str% "tolerance") (by decide)
    simp [ofVariant, get_append, get_optEntry, AMap.get] at dct f1 f2 f3 f4
    rw [← hvar]
    refine body false (by rw [dct]; rfl) (by rw [dct]; rfl) ?_ ?_ (by simp [restOf, hvar])
    · rw [hvar]
      simp [dctType, dct, printed, javaStr, kindWord]
    · rw [hvar]
      unfold kindFields
      rw [dct]
      dsimp only
      rw [f1, f2, f3, f4]
      simp only [fieldsT]
      cases p.tolerance <;> simp [ words, printed, javaStr, wT, nT, whenLet, optWord, Data.truthy]
  | opn p =>
    rw [hvar] at dct gk hv
    have f1 := gk (str% "acc") (by decide)
    have f2 := gk (str% "currencies") (by decide)
    have f3 := gk (str% "booking") (by decide)
    simp [ofVariant, get_append, get_optEntry, AMap.get] at dct f1 f2 f3
    rw [← hvar]
    refine body false (by rw [dct]; rfl) (by rw [dct]; rfl) ?_ ?_ (by simp [restOf, hvar])
    · rw [hvar]
      simp [dctType, dct, printed, javaStr, kindWord]
    · rw [hvar]
      unfold kindFields
      rw [dct]
      dsimp only
      rw [f1, f2, f3]
      have w1 : whenLet ((p.currencies.map (ofSet ord)).getD .nil) (fun cs => words [joinComma (sortBy cmpStr (cs.elems.map (javaStr txt)))]) =
          optWord (str% " ") (fun l => joinComma (sortBy cmpStr l)) p.currencies := by
        cases hc : p.currencies with
        | none => rfl
        | some l =>
          have e : ((ofSet ord l).elems.map (javaStr txt)) = (ord (l.map .str)).map plainStr := by
            change (ord (l.map .str)).map _ = _
            conv_lhs => rw [ord_eq h, List.map_map]
            have hid : javaStr txt ∘ Data.str = id := rfl
            rw [hid, List.map_id]
          have hn := (hv.2 l hc).2.1
          have e2 : sortBy cmpStr ((ord (l.map .str)).map plainStr) = sortBy cmpStr l :=
            sortBy_eq_of_mem_iff cmpStr_total ((map_plainStr_perm h l).symm.nodup hn) hn fun x => (map_plainStr_perm h l).mem_iff
          change words [joinComma (sortBy cmpStr ((ofSet ord l).elems.map (javaStr txt)))] = _
          rw [e, e2]
          simp [words, optWord]
      have w2 : whenLet (bookingText ((p.booking.map fun b => .kw (bookingName b)).getD .nil)) (fun b => words [printed txt b]) =
          optWord (str% " ") (fun b => '"' :: bookingWord b ++ ['"']) p.booking := by
        cases p.booking with
        | none => rfl
        | some b => cases b <;> rfl
      simp [fieldsT, words, printed, javaStr, wT] at w1 w2 ⊢
      simp [w1, w2]
  | close p =>
    rw [hvar] at dct gk hv
    have f1 := gk (str% "acc") (by decide)
    simp [ofVariant, get_append, get_optEntry, AMap.get] at dct f1
    rw [← hvar]
    refine body false (by rw [dct]; rfl) (by rw [dct]; rfl) ?_ ?_ (by simp [restOf, hvar])
    · rw [hvar]
      simp [dctType, dct, printed, javaStr, kindWord]
    · rw [hvar]
      unfold kindFields
      rw [dct]
      dsimp only
      rw [f1]
      simp [fieldsT, words, printed, javaStr, doubleQuote, wT, nT, qT]
  | commodity p =>
    rw [hvar] at dct gk hv
    have f1 := gk (str% "cur") (by decide)
    simp [ofVariant, get_append, get_optEntry, AMap.get] at dct f1
    rw [← hvar]
    refine body false (by rw [dct]; rfl) (by rw [dct]; rfl) ?_ ?_ (by simp [restOf, hvar])
    · rw [hvar]
      simp [dctType, dct, printed, javaStr, kindWord]
    · rw [hvar]
      unfold kindFields
      rw [dct]
      dsimp only
      rw [f1]
      simp [fieldsT, words, printed, javaStr, doubleQuote, wT, nT, qT]
  | pad p =>
    rw [hvar] at dct gk hv
    have f1 := gk (str% "acc") (by decide)
    have f2 := gk (str% "source") (by decide)
    simp [ofVariant, get_append, get_optEntry, AMap.get] at dct f1 f2
    rw [← hvar]
    refine body false (by rw [dct]; rfl) (by rw [dct]; rfl) ?_ ?_ (by simp [restOf, hvar])
    · rw [hvar]
      simp [dctType, dct, printed, javaStr, kindWord]
    · rw [hvar]
      unfold kindFields
      rw [dct]
      dsimp only
      rw [f1, f2]
      simp [fieldsT, words, printed, javaStr, doubleQuote, wT, nT, qT]
  | document p =>
    rw [hvar] at dct gk hv
    have f1 := gk (str% "acc") (by decide)
    have f2 := gk (str% "path") (by decide)
    simp [ofVariant, get_append, get_optEntry, AMap.get] at dct f1 f2
    rw [← hvar]
    refine body false (by rw [dct]; rfl) (by rw [dct]; rfl) ?_ ?_ (by simp [restOf, hvar])
    · rw [hvar]
      simp [dctType, dct, printed, javaStr, kindWord]
    · rw [hvar]
      unfold kindFields
      rw [dct]
      dsimp only
      rw [f1, f2]
      simp [fieldsT, words, printed, javaStr, doubleQuote, wT, nT, qT]
  | note p =>
    rw [hvar] at dct gk hv
    have f1 := gk (str% "acc") (by decide)
    have f2 := gk (str% "comment") (by decide)
    simp [ofVariant, get_append, get_optEntry, AMap.get] at dct f1 f2
    rw [← hvar]
    refine body false (by rw [dct]; rfl) (by rw [dct]; rfl) ?_ ?_ (by simp [restOf, hvar])
    · rw [hvar]
      simp [dctType, dct, printed, javaStr, kindWord]
    · rw [hvar]
      unfold kindFields
      rw [dct]
      dsimp only
      rw [f1, f2]
      simp [fieldsT, words, printed, javaStr, doubleQuote, wT, nT, qT]
  | event p =>
    rw [hvar] at dct gk hv
    have f1 := gk (str% "type") (by decide)
    have f2 := gk (str% "description") (by decide)
    simp [ofVariant, get_append, get_optEntry, AMap.get] at dct f1 f2
    rw [← hvar]
    refine body false (by rw [dct]; rfl) (by rw [dct]; rfl) ?_ ?_ (by simp [restOf, hvar])
    · rw [hvar]
      simp [dctType, dct, printed, javaStr, kindWord]
    · rw [hvar]
      unfold kindFields
      rw [dct]
      dsimp only
      rw [f1, f2]
      simp [fieldsT, words, printed, javaStr, doubleQuote, wT, nT, qT]
  | query p =>
    rw [hvar] at dct gk hv
    have f1 := gk (str% "name") (by decide)
    have f2 := gk (str% "content") (by decide)
    simp [ofVariant, get_append, get_optEntry, AMap.get] at dct f1 f2
    rw [← hvar]
    refine body false (by rw [dct]; rfl) (by rw [dct]; rfl) ?_ ?_ (by simp [restOf, hvar])
    · rw [hvar]
      simp [dctType, dct, printed, javaStr, kindWord]
    · rw [hvar]
      unfold kindFields
      rw [dct]
      dsimp only
      rw [f1, f2]
      simp [fieldsT, words, printed, javaStr, doubleQuote, wT, nT, qT]

end Clj
end Limabean
