/-
Strings as lists of characters, so that prefix and component arguments are list arguments
and closed examples reduce in the kernel.
-/

namespace Limabean

/-- Strings of the modelled programs. -/
abbrev Str := List Char

open Lean in
/-- `str% "ab"` is the list `['a', 'b']`. -/
macro "str% " s:str : term => do
  let cs := s.getString.toList
  let elems := cs.map fun c => (Syntax.mkCharLit c : TSyntax `char)
  let arr : TSyntaxArray `term := (elems.map fun (c : TSyntax `char) => (⟨c.raw⟩ : TSyntax `term)).toArray
  `(([$arr,*] : List Char))

example : str% "A:b" = ['A', ':', 'b'] := rfl

/-- `str::strip_prefix`. -/
def stripPrefix : Str → Str → Option Str
  | s, [] => some s
  | [], _ :: _ => none
  | c :: s, p :: ps => if c = p then stripPrefix s ps else none

theorem stripPrefix_eq_some {s p r : Str} : stripPrefix s p = some r ↔ s = p ++ r := by
  induction s generalizing p with
  | nil => cases p <;> simp [stripPrefix, eq_comm]
  | cons c s ih =>
    cases p with
    | nil => simp [stripPrefix, eq_comm]
    | cons q ps =>
      simp only [stripPrefix]
      by_cases h : c = q
      · simp [h, ih]
      · simp [h]

end Limabean
