/-
Cells for display: clj/src/limabean/core/cell.clj, and the text of numbers, which is Java's `BigDecimal.toString`.

Not modelled: laying out cells as a table (tabulator). The cells of inventories and reports are in Clj/Show.lean.
-/
import Verif.Basic.Str
import Verif.Basic.Dec

namespace Limabean
namespace Clj

/-- Cells: cell.clj:5-18. -/
inductive Cell
  | empty
  | stack (cells : List Cell)
  | row (cells : List Cell) (gutter : Str)
  | aligned (s : Str)
  | anchored (s : Str) (i : Int)

/-- Values which can be displayed: the dispatch of cell.clj:29-44. Strings, dates, keywords, characters and booleans are all
displayed as their text, left aligned (lines 68-70, 78-82), so that they are one constructor. Numbers are given by their text.
Maps are lists of entries with different keys, sets are lists without duplicates. -/
inductive Val
  | nil
  | text (s : Str)
  | num (s : Str)
  | map (entries : List (Val × Val))
  | vector (items : List Val)
  | seq (items : List Val)
  | set (items : List Val)
  | other

/-- `(str/index-of s c)`: `none` if there is none. -/
def indexOf (c : Char) : Str → Option Nat
  | [] => none
  | x :: s => if x = c then some 0 else (indexOf c s).map (· + 1)

/-- cell.clj:72-76. -/
def numberCell (s : Str) : Cell :=
  let dp := ((indexOf '.' s).or (indexOf '/' s)).getD s.length
  .anchored s ((dp : Int) - 1)

/-- cell.clj:57-62. -/
def vectorCell : List Cell → Cell
  | [] => .empty
  | [c] => c
  | cs => .stack cs

/-- Sorting, if possible: cell.clj:46-49. What the order is, and when it is impossible, is left open: a function which rearranges. -/
structure TrySort where
  keys : List (Cell × Cell) → List (Cell × Cell)
  items : List Cell → List Cell
  keys_perm : ∀ l, (keys l).Perm l
  items_perm : ∀ l, (items l).Perm l

mutual
/-- `cell`: cell.clj:51-86. Simplification: rearranging is applied to the cells of the keys rather than to the keys. -/
def cell (srt : TrySort) : Val → Cell
  | .nil => .empty
  | .text s => .aligned s
  | .num s => numberCell s
  | .map es => .stack ((srt.keys (mapEntryCells srt es)).map fun e => .row [e.1, e.2] (str% "  "))
  | .vector xs => vectorCell (cells srt xs)
  | .seq xs => vectorCell (cells srt xs)
  | .set xs => vectorCell (srt.items (cells srt xs))
  | .other => .aligned (str% "?")
def cells (srt : TrySort) : List Val → List Cell
  | [] => []
  | x :: xs => cell srt x :: cells srt xs
def mapEntryCells (srt : TrySort) : List (Val × Val) → List (Cell × Cell)
  | [] => []
  | (k, v) :: es => (cell srt k, cell srt v) :: mapEntryCells srt es
end

/-- A decimal digit. -/
def digitChar (n : Nat) : Char := Char.ofNat (48 + n % 10)

/-- Decimal digits of a natural number, with enough fuel. -/
def digitsFuel : Nat → Nat → Str
  | 0, _ => []
  | fuel + 1, n => (if n < 10 then [] else digitsFuel fuel (n / 10)) ++ [digitChar n]

/-- `BigInteger.toString` of a number which is not negative. -/
def digits (n : Nat) : Str := digitsFuel (n + 1) n

/-- `str` of a number which arrived as a `BigDecimal`: `BigDecimal.toString`, whose documentation fixes the text. Scientific notation
is used if the exponent is less than -6. -/
def decText (d : Dec) : Str :=
  let sign := if d.m < 0 then ['-'] else []
  let coeff := digits d.m.natAbs
  let adjusted : Int := (coeff.length : Int) - 1 - d.s
  sign ++
    if d.s = 0 then coeff
    else if adjusted ≥ -6 then
      if coeff.length ≤ d.s then str% "0." ++ List.replicate (d.s - coeff.length) '0' ++ coeff
      else coeff.take (coeff.length - d.s) ++ ['.'] ++ coeff.drop (coeff.length - d.s)
    else
      coeff.take 1 ++ (if coeff.length > 1 then ['.'] ++ coeff.drop 1 else []) ++ str% "E-" ++ digits adjusted.natAbs

end Clj
end Limabean
