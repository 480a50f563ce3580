/-
C53: numbers are shown exactly and line up at their units. False for numbers below one millionth with more than six decimal places.
-/
import Verif.Props.C51
import Mathlib.Tactic.IntervalCases

namespace Limabean

open Clj

/-- The number which a text of decimal digits denotes. -/
def Spec.digitsValue (s : Str) : Nat := s.foldl (fun v c => 10 * v + (c.toNat - 48)) 0

/-- A text of decimal digits. -/
def Spec.AllDigits (s : Str) : Prop := ∀ c ∈ s, '0' ≤ c ∧ c ≤ '9'

open Spec

/-- The cell shows the decimal exactly: its sign, its whole part `w`, and if it has decimal places, a point and that many digits; it is
anchored at the last digit of the whole part. -/
def Spec.ShowsUnits (d : Dec) (c : Cell) : Prop :=
  ∃ w f : Str, AllDigits w ∧ w ≠ [] ∧ AllDigits f ∧ f.length = d.s ∧
    digitsValue w = d.m.natAbs / 10 ^ d.s ∧ digitsValue f = d.m.natAbs % 10 ^ d.s ∧
    c = .anchored ((if d.m < 0 then ['-'] else []) ++ w ++ (if d.s = 0 then [] else '.' :: f))
      ((if d.m < 0 then 1 else 0) + w.length - 1)

namespace Clj

theorem digitsValue_append (a b : Str) : digitsValue (a ++ b) = digitsValue a * 10 ^ b.length + digitsValue b := by
  unfold digitsValue
  rw [List.foldl_append]
  generalize List.foldl _ 0 a = v
  induction b using List.reverseRecOn with
  | nil => simp
  | append_singleton b c ih =>
    simp only [List.foldl_append, List.foldl_cons, List.foldl_nil, List.length_append, List.length_cons, List.length_nil]
    rw [ih]
    ring

theorem digitChar_digit (n : Nat) : '0' ≤ digitChar n ∧ digitChar n ≤ '9' ∧ (digitChar n).toNat - 48 = n % 10 := by
  unfold digitChar
  have h : n % 10 < 10 := Nat.mod_lt _ (by decide)
  generalize n % 10 = k at h
  interval_cases k <;> decide

theorem digit_le {c : Char} (h : '0' ≤ c ∧ c ≤ '9') : c.toNat - 48 ≤ 9 := by
  have h2 := h.2
  have : c.toNat ≤ 57 := h2
  omega

theorem digitsValue_lt {s : Str} (h : AllDigits s) : digitsValue s < 10 ^ s.length := by
  induction s using List.reverseRecOn with
  | nil => simp [digitsValue]
  | append_singleton s c ih =>
    have h1 := ih fun x hx => h x (by simp [hx])
    have h2 := digit_le (h c (by simp))
    rw [digitsValue_append]
    have : digitsValue [c] = c.toNat - 48 := by simp [digitsValue]
    rw [this, List.length_append]
    simp only [List.length_cons, List.length_nil, Nat.zero_add, Nat.pow_succ]
    omega

theorem digitsFuel_facts (fuel n : Nat) (h : n < fuel) :
    AllDigits (digitsFuel fuel n) ∧ digitsValue (digitsFuel fuel n) = n ∧ digitsFuel fuel n ≠ [] := by
  induction fuel generalizing n with
  | zero => omega
  | succ fuel ih =>
    unfold digitsFuel
    obtain ⟨h1, h2, h3⟩ := digitChar_digit n
    by_cases hn : n < 10
    · simp only [hn, if_true, List.nil_append]
      refine ⟨?_, ?_, by simp⟩
      · intro c hc
        rw [List.mem_singleton] at hc
        subst hc
        exact ⟨h1, h2⟩
      · simp only [digitsValue, List.foldl_cons, List.foldl_nil, h3]
        omega
    · simp only [hn, if_false]
      obtain ⟨i1, i2, -⟩ := ih (n / 10) (by omega)
      refine ⟨?_, ?_, by simp⟩
      · intro c hc
        rcases List.mem_append.1 hc with hc | hc
        · exact i1 c hc
        · rw [List.mem_singleton] at hc
          subst hc
          exact ⟨h1, h2⟩
      · rw [digitsValue_append, i2]
        simp only [digitsValue, List.foldl_cons, List.foldl_nil, h3, List.length_cons, List.length_nil]
        omega

/-- The number of digits. -/
theorem digitsFuel_length (fuel n k : Nat) (h : n < fuel) (hk : 10 ^ k ≤ n) : k < (digitsFuel fuel n).length := by
  obtain ⟨h1, h2, -⟩ := digitsFuel_facts fuel n h
  have := digitsValue_lt h1
  rw [h2] at this
  exact (Nat.pow_lt_pow_iff_right (a := 10) (by decide)).1 (lt_of_le_of_lt hk this)

theorem AllDigits.no_point {s : Str} (h : AllDigits s) : '.' ∉ s ∧ '/' ∉ s := by
  constructor <;> intro hc <;> have := (h _ hc).1 <;> revert this <;> decide

theorem indexOf_append {c : Char} {a b : Str} (h : c ∉ a) : indexOf c (a ++ b) = (indexOf c b).map (· + a.length) := by
  induction a with
  | nil => cases h : indexOf c b <;> simp [h]
  | cons x a ih =>
    rw [List.cons_append, indexOf, if_neg (by rintro rfl; simp at h), ih fun hc => h (by simp [hc])]
    cases indexOf c b <;> simp; omega

/-- Where the text is that of the specification, the anchor is as well. -/
theorem shows_of_text {d : Dec} {w f : Str} (hw : AllDigits w) (hw0 : w ≠ []) (hf : AllDigits f) (hl : f.length = d.s)
    (h1 : digitsValue w = d.m.natAbs / 10 ^ d.s) (h2 : digitsValue f = d.m.natAbs % 10 ^ d.s)
    (ht : decText d = (if d.m < 0 then ['-'] else []) ++ w ++ (if d.s = 0 then [] else '.' :: f)) :
    ShowsUnits d (numberCell (decText d)) := by
  refine ⟨w, f, hw, hw0, hf, hl, h1, h2, ?_⟩
  rw [ht]
  generalize hp : (if d.m < 0 then ['-'] else []) ++ w = p
  have hp1 : '.' ∉ p ∧ '/' ∉ p := by
    obtain ⟨a, b⟩ := AllDigits.no_point hw
    rw [← hp]
    by_cases hm : d.m < 0 <;> simp [hm, a, b]
  have hp2 : (p.length : Int) = (if d.m < 0 then 1 else 0) + w.length := by
    rw [← hp]
    by_cases hm : d.m < 0 <;> simp [hm]; omega
  unfold numberCell
  rw [indexOf_append hp1.1, indexOf_append hp1.2]
  by_cases hs : d.s = 0
  · simp only [hs, if_true, indexOf, Option.map_none, Option.or_none, Option.getD_none, List.append_nil]
    rw [hp2]
  · simp only [hs, if_false, indexOf, if_true, Option.map_some, Option.some_or, Option.getD_some]
    congr 1
    push_cast
    omega

end Clj

/-- C53, partial: numbers with at most six decimal places, and numbers of at least one millionth, are shown exactly and anchored at their
units. Missing: tiny numbers, for which this is false. -/
theorem C53_units_partial (d : Dec) (h : d.s ≤ 6 ∨ 10 ^ (d.s - 6) ≤ d.m.natAbs) : ShowsUnits d (numberCell (decText d)) := by
  obtain ⟨c1, c2, c3⟩ := digitsFuel_facts (d.m.natAbs + 1) d.m.natAbs (by omega)
  have hadj : ((digits d.m.natAbs).length : Int) - 1 - d.s ≥ -6 := by
    have hpos : 0 < (digits d.m.natAbs).length := List.length_pos_of_ne_nil c3
    rcases h with h | h
    · omega
    · have := digitsFuel_length (d.m.natAbs + 1) d.m.natAbs (d.s - 6) (by omega) h
      have : d.s - 6 < (digits d.m.natAbs).length := this
      omega
  have hlt := digitsValue_lt c1
  have c2' : digitsValue (digits d.m.natAbs) = d.m.natAbs := c2
  have c1' : AllDigits (digits d.m.natAbs) := c1
  have c3' : digits d.m.natAbs ≠ [] := c3
  have hlt' : d.m.natAbs < 10 ^ (digits d.m.natAbs).length := by
    have := digitsValue_lt c1'
    rwa [c2'] at this
  by_cases hs : d.s = 0
  · refine shows_of_text (w := digits d.m.natAbs) (f := []) c1' c3' (by intro c hc; simp at hc) (by simp [hs]) ?_ ?_ ?_
    · rw [c2', hs]; simp
    · rw [hs]; simp [digitsValue, Nat.mod_one]
    · simp [decText, hs]
  · by_cases hlen : (digits d.m.natAbs).length ≤ d.s
    · have hsmall : d.m.natAbs < 10 ^ d.s := lt_of_lt_of_le hlt' (Nat.pow_le_pow_right (by decide) hlen)
      have hz : digitsValue (List.replicate (d.s - (digits d.m.natAbs).length) '0') = 0 := by
        generalize d.s - (digits d.m.natAbs).length = n
        induction n with
        | zero => rfl
        | succ n ih =>
          rw [List.replicate_succ', digitsValue_append, ih]
          simp [digitsValue]
      refine shows_of_text (w := ['0'])
        (f := List.replicate (d.s - (digits d.m.natAbs).length) '0' ++ digits d.m.natAbs) ?_ (by simp) ?_ ?_ ?_ ?_ ?_
      · intro c hc
        rw [List.mem_singleton] at hc
        subst hc
        decide
      · intro c hc
        rcases List.mem_append.1 hc with hc | hc
        · rw [List.eq_of_mem_replicate hc]
          decide
        · exact c1' c hc
      · simp only [List.length_append, List.length_replicate]
        omega
      · rw [Nat.div_eq_of_lt hsmall]
        decide
      · rw [digitsValue_append, hz, c2', Nat.mod_eq_of_lt hsmall]
        simp
      · unfold decText
        simp only [hs, if_false, hadj, if_true, hlen]
        simp
    · have hfl : ((digits d.m.natAbs).drop ((digits d.m.natAbs).length - d.s)).length = d.s := by
        rw [List.length_drop]
        omega
      have hsplit := digitsValue_append ((digits d.m.natAbs).take ((digits d.m.natAbs).length - d.s))
        ((digits d.m.natAbs).drop ((digits d.m.natAbs).length - d.s))
      rw [List.take_append_drop, c2', hfl] at hsplit
      have hfd : AllDigits ((digits d.m.natAbs).drop ((digits d.m.natAbs).length - d.s)) :=
        fun c hc => c1' c (List.mem_of_mem_drop hc)
      have hflt := digitsValue_lt hfd
      rw [hfl] at hflt
      refine shows_of_text (w := (digits d.m.natAbs).take ((digits d.m.natAbs).length - d.s))
        (f := (digits d.m.natAbs).drop ((digits d.m.natAbs).length - d.s)) ?_ ?_ hfd hfl ?_ ?_ ?_
      · exact fun c hc => c1' c (List.mem_of_mem_take hc)
      · intro he
        have := congrArg List.length he
        rw [List.length_take] at this
        simp at this
        omega
      · conv_rhs => rw [hsplit]
        rw [mul_comm, Nat.mul_add_div (by positivity), Nat.div_eq_of_lt hflt]
        simp
      · conv_rhs => rw [hsplit]
        rw [mul_comm, Nat.mul_add_mod, Nat.mod_eq_of_lt hflt]
      · unfold decText
        simp only [hs, if_false, hadj, if_true, hlen]
        simp

/-- C53 is false: one ten-millionth is shown in scientific notation and anchored at its exponent. -/
theorem C53_false : decText ⟨1, 7⟩ = str% "1E-7" ∧ ¬ ∀ d, ShowsUnits d (numberCell (decText d)) := by
  refine ⟨by decide +kernel, fun h => ?_⟩
  obtain ⟨w, f, -, -, -, -, -, -, h⟩ := h ⟨1, 7⟩
  have ht : decText ⟨1, 7⟩ = str% "1E-7" := by decide +kernel
  rw [ht] at h
  unfold numberCell at h
  simp only [Cell.anchored.injEq] at h
  have : '.' ∈ str% "1E-7" := by
    rw [h.1]
    simp
  revert this
  decide

example : numberCell (decText ⟨-1250, 2⟩) = .anchored (str% "-12.50") 2 ∧ numberCell (decText ⟨5, 3⟩) = .anchored (str% "0.005") 0 ∧
    numberCell (decText ⟨1200, 0⟩) = .anchored (str% "1200") 3 := by
  have h1 : decText ⟨-1250, 2⟩ = str% "-12.50" := by decide +kernel
  have h2 : decText ⟨5, 3⟩ = str% "0.005" := by decide +kernel
  have h3 : decText ⟨1200, 0⟩ = str% "1200" := by decide +kernel
  rw [h1, h2, h3]
  exact ⟨rfl, rfl, rfl⟩

end Limabean
