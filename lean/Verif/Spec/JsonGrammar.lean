/-
The texts which denote a JSON value: RFC 8259, with the numbers as decimals. For C121.
-/
import Verif.Pod.Types
import Verif.Server.Json
import Verif.Props.C53
import Verif.Basic.Dec

namespace Limabean
namespace Spec

/-- White space: RFC 8259, section 2. -/
def Blanks (s : Str) : Prop := ∀ c ∈ s, c = ' ' ∨ c = '\t' ∨ c = '\n' ∨ c = '\r'

/-- A hexadecimal digit, of either case. -/
def IsHex (n : Nat) (c : Char) : Prop :=
  (n < 10 ∧ c.toNat = '0'.toNat + n) ∨ (10 ≤ n ∧ n < 16 ∧ (c.toNat = 'a'.toNat + (n - 10) ∨ c.toNat = 'A'.toNat + (n - 10)))

/-- Four hexadecimal digits. -/
def IsHex4 (n : Nat) (s : Str) : Prop :=
  ∃ a b c d, s.length = 4 ∧ List.Forall₂ IsHex [a, b, c, d] s ∧ n = ((a * 16 + b) * 16 + c) * 16 + d

/-- The ways to write a character within a string: RFC 8259, section 7. -/
inductive CharText : Char → Str → Prop
  | plain {c : Char} : 0x20 ≤ c.toNat → c ≠ '"' → c ≠ '\\' → CharText c [c]
  | quote : CharText '"' (str% "\\\"")
  | backslash : CharText '\\' (str% "\\\\")
  | slash : CharText '/' (str% "\\/")
  | backspace : CharText '\x08' (str% "\\b")
  | formFeed : CharText '\x0c' (str% "\\f")
  | lineFeed : CharText '\n' (str% "\\n")
  | carriageReturn : CharText '\r' (str% "\\r")
  | tab : CharText '\t' (str% "\\t")
  | unit {c : Char} {s : Str} : IsHex4 c.toNat s → CharText c (str% "\\u" ++ s)
  | pair {c : Char} {s t : Str} : 0x10000 ≤ c.toNat → IsHex4 (0xD800 + (c.toNat - 0x10000) / 0x400) s →
      IsHex4 (0xDC00 + (c.toNat - 0x10000) % 0x400) t → CharText c (str% "\\u" ++ s ++ str% "\\u" ++ t)

/-- What may stand between the quotes for a string. -/
inductive StringText : Str → Str → Prop
  | nil : StringText [] []
  | cons {c : Char} {s t u : Str} : CharText c t → StringText s u → StringText (c :: s) (t ++ u)

/-- The exponent of a number, if there is one. -/
inductive ExponentText : Int → Str → Prop
  | none : ExponentText 0 []
  | unsigned {c : Char} {x : Str} : c = 'e' ∨ c = 'E' → AllDigits x → x ≠ [] → ExponentText (digitsValue x) (c :: x)
  | plus {c : Char} {x : Str} : c = 'e' ∨ c = 'E' → AllDigits x → x ≠ [] → ExponentText (digitsValue x) (c :: '+' :: x)
  | minus {c : Char} {x : Str} : c = 'e' ∨ c = 'E' → AllDigits x → x ≠ [] → ExponentText (-digitsValue x) (c :: '-' :: x)

/-- The text of a number: RFC 8259, section 6. There is no leading zero. The decimal has the value of the text and as many decimal places
as are needed for all digits which are written. -/
def NumberText (d : Dec) (t : Str) : Prop :=
  ∃ (neg : Bool) (w f p : Str) (e : Int), AllDigits w ∧ AllDigits f ∧ w ≠ [] ∧ (w.head? = some '0' → w = ['0']) ∧ ExponentText e p ∧
    t = (if neg then ['-'] else []) ++ (w ++ ((if f = [] then [] else '.' :: f) ++ p)) ∧
    d.val = (if neg then -1 else 1) * (digitsValue (w ++ f) : ℚ) * 10 ^ (e - f.length) ∧ (d.s : Int) = max 0 (f.length - e)

/-- What texts denote. -/
inductive Part where
  | value (j : Json)
  | elements (l : List Json)
  | entries (l : List (Str × Json))

/-- The texts of values, of what stands between brackets, and of what stands between braces: RFC 8259, sections 3 to 5. -/
inductive Denotes : Part → Str → Prop
  | null : Denotes (.value .null) (str% "null")
  | yes : Denotes (.value (.bool true)) (str% "true")
  | no : Denotes (.value (.bool false)) (str% "false")
  | num {d : Dec} {s : Str} : NumberText d s → Denotes (.value (.num d)) s
  | str {v s : Str} : StringText v s → Denotes (.value (.str v)) ('"' :: (s ++ ['"']))
  | arr {l : List Json} {s : Str} : Denotes (.elements l) s → Denotes (.value (.arr l)) ('[' :: (s ++ [']']))
  | obj {l : List (Str × Json)} {s : Str} : Denotes (.entries l) s → Denotes (.value (.obj l)) ('{' :: (s ++ ['}']))
  | noElements {b : Str} : Blanks b → Denotes (.elements []) b
  | lastElement {j : Json} {b s b' : Str} : Blanks b → Denotes (.value j) s → Blanks b' → Denotes (.elements [j]) (b ++ (s ++ b'))
  | element {j k : Json} {l : List Json} {b s b' t : Str} : Blanks b → Denotes (.value j) s → Blanks b' → Denotes (.elements (k :: l)) t →
      Denotes (.elements (j :: k :: l)) (b ++ (s ++ (b' ++ ',' :: t)))
  | noEntries {b : Str} : Blanks b → Denotes (.entries []) b
  | lastEntry {k : Str} {j : Json} {b q b1 b2 s b3 : Str} : Blanks b → StringText k q → Blanks b1 → Blanks b2 → Denotes (.value j) s →
      Blanks b3 → Denotes (.entries [(k, j)]) (b ++ '"' :: (q ++ '"' :: (b1 ++ ':' :: (b2 ++ (s ++ b3)))))
  | entry {k : Str} {j : Json} {p : Str × Json} {l : List (Str × Json)} {b q b1 b2 s b3 t : Str} : Blanks b → StringText k q → Blanks b1 →
      Blanks b2 → Denotes (.value j) s → Blanks b3 → Denotes (.entries (p :: l)) t →
      Denotes (.entries ((k, j) :: p :: l)) (b ++ '"' :: (q ++ '"' :: (b1 ++ ':' :: (b2 ++ (s ++ (b3 ++ ',' :: t))))))

end Spec
end Limabean
