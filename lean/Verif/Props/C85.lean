/-
C85: from the text of a report of booking one can read what is wrong.
-/
import Verif.Pod.Reason
import Verif.Proofs.CodeLemmas

namespace Limabean

open Clj Spec

namespace Spec

/-- The text is the decimal notation of the number, with all its decimal places. -/
def Notation (d : Dec) (t : Str) : Prop := ∃ w f : Str, AllDigits w ∧ w ≠ [] ∧ AllDigits f ∧ digitsValue (w ++ f) = d.m.natAbs ∧ f.length = d.s ∧
  t = (if d.m < 0 then ['-'] else []) ++ w ++ (if f = [] then [] else '.' :: f)

/-- What is known about `Display` of `limabean_booking::Booking`: different methods have different names, and these are words. -/
structure MethodNames (method : Booking → Str) : Prop where
  inj : ∀ b b', method b = method b' → b = b'
  word : ∀ b, ' ' ∉ method b

/-- The reason is not one of the booking library. -/
def Own : Reason → Prop
  | .library _ => False
  | .libraryPosting _ _ => False
  | _ => True

end Spec

namespace Clj

theorem decimalDigits_eq (n : Nat) : decimalDigits n = digits n := by
  have h : ∀ fuel n, decimalDigitsFuel fuel n = digitsFuel fuel n := by
    intro fuel
    induction fuel with
    | zero => exact fun _ => rfl
    | succ fuel ih =>
      intro n
      simp only [decimalDigitsFuel, digitsFuel, ih]
      rfl
  exact h _ _

theorem display_shape (d : Dec) : ∃ w f, DecShape d.display d w f [] := by
  obtain ⟨c1, c2, c3⟩ := digits_facts d.m.natAbs
  have hpos : 0 < (digits d.m.natAbs).length := List.length_pos_of_ne_nil c3
  have nodigits : AllDigits [] := fun c hc => absurd hc (by simp)
  by_cases hs : d.s = 0
  · refine ⟨digits d.m.natAbs, [], c1, c3, nodigits, nodigits, by simpa using c2, by simp [hs, digitsValue], ?_⟩
    simp [Dec.display, hs, decimalDigits_eq]
  · by_cases hlen : (digits d.m.natAbs).length ≤ d.s
    · refine ⟨['0'], List.replicate (d.s - (digits d.m.natAbs).length) '0' ++ digits d.m.natAbs, ?_, by simp, ?_, nodigits,
        ?_, ?_, ?_⟩
      · intro c hc
        rw [List.mem_singleton] at hc
        subst hc
        decide
      · intro c hc
        rcases List.mem_append.1 hc with hc | hc
        · rw [List.eq_of_mem_replicate hc]
          decide
        · exact c1 c hc
      · have := digitsValue_zeros 1 (List.replicate (d.s - (digits d.m.natAbs).length) '0' ++ digits d.m.natAbs)
        rw [show List.replicate 1 '0' = ['0'] from rfl] at this
        rw [this, digitsValue_zeros, c2]
      · simp only [List.length_append, List.length_replicate, digitsValue, List.foldl_nil]
        omega
      · unfold Dec.display
        simp only [hs, if_false, hlen, if_true, decimalDigits_eq]
        simp [c3]
    · have hdrop : (digits d.m.natAbs).drop ((digits d.m.natAbs).length - d.s) ≠ [] := by
        intro h
        have := congrArg List.length h
        simp at this
        omega
      refine ⟨(digits d.m.natAbs).take ((digits d.m.natAbs).length - d.s),
        (digits d.m.natAbs).drop ((digits d.m.natAbs).length - d.s), fun c hc => c1 c (List.mem_of_mem_take hc), ?_,
        fun c hc => c1 c (List.mem_of_mem_drop hc), nodigits, ?_, ?_, ?_⟩
      · intro h
        have := congrArg List.length h
        simp at this
        omega
      · rw [List.take_append_drop, c2]
      · rw [List.length_drop]
        simp only [digitsValue, List.foldl_nil]
        omega
      · unfold Dec.display
        simp only [hs, if_false, hlen, hdrop, decimalDigits_eq]
        simp

theorem display_inj {d d' : Dec} (h : d.display = d'.display) : d = d' := by
  obtain ⟨w, f, s⟩ := display_shape d
  obtain ⟨w', f', s'⟩ := display_shape d'
  exact s.inj s' h

theorem display_chars (d : Dec) : ∀ c ∈ d.display, c ≠ ',' ∧ c ≠ ' ' := by
  obtain ⟨w, f, s⟩ := display_shape d
  intro c hc
  rcases s.chars c hc with h | rfl | rfl | rfl
  · constructor <;> (rintro rfl; revert h; decide)
  all_goals decide

theorem display_notation (d : Dec) : Notation d d.display := by
  obtain ⟨w, f, s⟩ := display_shape d
  refine ⟨w, f, s.whole, s.whole_ne, s.frac, s.value, ?_, ?_⟩
  · simpa [digitsValue] using s.scale
  · rw [s.text]
    simp

theorem code_display : Code (fun _ => True) Dec.display (Follow fun c => c = ',' ∨ c = ' ') :=
  code_word _ (fun a _ c hc hd => by rcases hd with rfl | rfl
                                     · exact (display_chars a _ hc).1 rfl
                                     · exact (display_chars a _ hc).2 rfl) fun _ _ _ _ h => display_inj h

end Clj

/-- C85: the text of a report which does not come from the booking library determines the report: what is wrong, and, where they are told,
the accumulated amount, the difference and the currency, or the booking methods. -/
theorem C85_told {method : Booking → Str} (hm : MethodNames method) {r r' : Reason} (h : Own r) (h' : Own r')
    (he : r.text method = r'.text method) : r = r' := by
  have hacc : ∀ {t m c t' m' c'}, Reason.text method (.accumulated t m c) = Reason.text method (.accumulated t' m' c') →
      Reason.accumulated t m c = .accumulated t' m' c' := by
    intro t m c t' m' c' he
    simp only [Reason.text, List.append_assoc, List.append_cancel_left_eq] at he
    obtain ⟨rfl, he⟩ := code_display t t' _ _ trivial trivial ⟨',', _, rfl, .inl rfl⟩ ⟨',', _, rfl, .inl rfl⟩ he
    simp only [List.append_cancel_left_eq] at he
    obtain ⟨rfl, he⟩ := code_display m m' _ _ trivial trivial ⟨' ', _, rfl, .inr rfl⟩ ⟨' ', _, rfl, .inr rfl⟩ he
    simp only [List.append_cancel_left_eq] at he
    rw [he]
  have hbk : ∀ {b d b' d'}, Reason.text method (.bookingUnsupported b d) = Reason.text method (.bookingUnsupported b' d') →
      Reason.bookingUnsupported b d = .bookingUnsupported b' d' := by
    intro b d b' d' he
    simp only [Reason.text, List.append_assoc, List.append_cancel_left_eq] at he
    obtain ⟨h1, he⟩ := code_delim (· = ' ') (method b) (method b') _ _ (fun c hc e => hm.word b (e ▸ hc))
      (fun c hc e => hm.word b' (e ▸ hc)) ⟨' ', _, rfl, rfl⟩ ⟨' ', _, rfl, rfl⟩ he
    have he := List.append_cancel_left (as := str% " unsupported, falling back to default ") he
    rw [hm.inj _ _ h1, hm.inj _ _ he]
  have hex : ∀ {b d}, Reason.text method (.bookingUnsupported b d) ≠ Reason.text method .bookingUnsupportedExplicit := by
    intro b d he
    have e2 : Reason.text method .bookingUnsupportedExplicit =
      str% "booking method " ++ (str% "{}" ++ str% " unsupported, falling back to default") := rfl
    rw [e2] at he
    simp only [Reason.text, List.append_assoc, List.append_cancel_left_eq] at he
    obtain ⟨-, he⟩ := code_delim (· = ' ') (method b) (str% "{}") _ _ (fun c hc e => hm.word b (e ▸ hc))
      (fun c hc e => by subst e; revert hc; decide) ⟨' ', _, rfl, rfl⟩ ⟨' ', _, rfl, rfl⟩ he
    have := congrArg List.length he
    simp at this
  cases r <;> cases r' <;> first
    | rfl
    | exact absurd h id
    | exact absurd h' id
    | exact hacc he
    | exact hbk he
    | exact absurd he hex
    | exact absurd he.symm hex
    | (exfalso
       revert he
       simp [Reason.text])

/-- C85: a failed assertion is told with the decimal notation of the amounts, and with the currency. -/
theorem C85_amounts (method : Booking → Str) (total margin : Dec) (cur : Str) : ∃ a b, Notation total a ∧ Notation margin b ∧
    (Reason.accumulated total margin cur).text method = str% "accumulated " ++ a ++ str% ", error " ++ b ++ str% " " ++ cur :=
  ⟨_, _, display_notation total, display_notation margin, rfl⟩

/-- The notation determines the number, with its decimal places. -/
theorem C85_notation {d d' : Dec} {t : Str} (h : Notation d t) (h' : Notation d' t) : d = d' := by
  have shape : ∀ {d : Dec}, Notation d t → ∃ w f, DecShape t d w f [] := by
    rintro d ⟨w, f, h1, h2, h3, h4, h5, h6⟩
    exact ⟨w, f, h1, h2, h3, (fun c hc => absurd hc (by simp)), h4, by simpa [digitsValue] using h5, by rw [h6]; simp⟩
  obtain ⟨w, f, s⟩ := shape h
  obtain ⟨w', f', s'⟩ := shape h'
  exact s.inj s' rfl

/-- C85: an error of the booking library on a posting is told with the error of the library and the number of the posting. -/
theorem C85_posting {method : Booking → Str} {t t' : Str} {i i' : Nat}
    (h : (Reason.libraryPosting t i).text method = (Reason.libraryPosting t' i').text method) : t = t' ∧ i = i' := by
  simp only [Reason.text, decimalDigits_eq] at h
  have h := congrArg List.reverse h
  simp only [List.reverse_append, List.append_assoc] at h
  obtain ⟨c1, c2, -⟩ := digits_facts i
  obtain ⟨d1, d2, -⟩ := digits_facts i'
  have hd : ∀ {s : Str}, AllDigits s → ∀ c ∈ s.reverse, ¬ c = ' ' := by
    rintro s hs c hc rfl
    have := hs ' ' (List.mem_reverse.1 hc)
    revert this
    decide
  obtain ⟨h1, h2⟩ := code_delim (· = ' ') _ _ _ _ (hd c1) (hd d1) ⟨' ', _, rfl, rfl⟩ ⟨' ', _, rfl, rfl⟩ h
  have h2 := List.append_cancel_left (as := (str% " on posting ").reverse) h2
  refine ⟨List.reverse_injective h2, ?_⟩
  rw [← c2, ← d2, List.reverse_injective h1]

namespace Ex

/-- Names of the booking methods. -/
def methodName : Booking → Str
  | .strict => str% "STRICT"
  | .strictWithSize => str% "STRICT_WITH_SIZE"
  | .none => str% "NONE"
  | .average => str% "AVERAGE"
  | .fifo => str% "FIFO"
  | .lifo => str% "LIFO"
  | .hifo => str% "HIFO"

theorem methodNames : MethodNames methodName := by
  constructor
  · intro b b' h
    cases b <;> cases b' <;> first | rfl | (revert h; decide)
  · intro b
    cases b <;> decide

end Ex

/-- Non-vacuity: names as `C85_told` asks for, and some texts. -/
example : MethodNames Ex.methodName ∧ (Reason.accumulated ⟨1005, 2⟩ ⟨-5, 2⟩ (str% "USD")).text Ex.methodName =
      str% "accumulated 10.05, error -0.05 USD" ∧
    (Reason.bookingUnsupported .none .strict).text Ex.methodName =
      str% "booking method NONE unsupported, falling back to default STRICT" ∧
    (Reason.libraryPosting (str% "multiple currencies") 12).text Ex.methodName = str% "multiple currencies on posting 12" :=
  ⟨Ex.methodNames, by decide +kernel, by decide +kernel, by decide +kernel⟩

end Limabean
