/-
The text of JSON, as serde_json and Jackson (below cheshire) write and read it, and the lines in which the server and its client exchange
texts: rust/src/api/server.rs:81-114, 400-425, 466-494; clj/src/limabean/adapter/pod.clj:13-32, 51-58.

Written from the documentation of the two libraries; they are not part of the repository. Both write no blanks, escape the quote, the
backslash and the control characters only, and these alike up to the case of hexadecimal digits. serde_json writes a `Decimal` as its
`Display` (rust/Cargo.toml:40-43), Jackson a `BigDecimal` as its `toString`, which for small numbers uses an exponent.
Simplified: text is a list of characters, not of bytes (bytes which are not UTF-8 are `Line.notText`); floating point numbers, which
occur as ids only, are written as the decimals they denote; a number with an exponent is read as the decimal it denotes also where
serde wants an integer.
-/
import Verif.Server.Response
import Verif.Pod.Reason
import Verif.Clj.Cell

namespace Limabean
namespace JsonText

/-- A hexadecimal digit. -/
def hexDigit (upper : Bool) (n : Nat) : Char :=
  Char.ofNat (if n < 10 then 48 + n else (if upper then 55 else 87) + n)

/-- A character within a string. -/
def escape (upper : Bool) (c : Char) : Str :=
  if c = '"' then ['\\', '"']
  else if c = '\\' then ['\\', '\\']
  else if c = '\x08' then ['\\', 'b']
  else if c = '\x0c' then ['\\', 'f']
  else if c = '\n' then ['\\', 'n']
  else if c = '\r' then ['\\', 'r']
  else if c = '\t' then ['\\', 't']
  else if c.toNat < 32 then ['\\', 'u', '0', '0', hexDigit upper (c.toNat / 16), hexDigit upper (c.toNat % 16)]
  else [c]

/-- A string. -/
def quote (upper : Bool) (s : Str) : Str := '"' :: s.flatMap (escape upper) ++ ['"']

/-- What the two libraries do not have in common. -/
structure Writer where
  upper : Bool
  number : Dec → Str

/-- `serde_json::to_string`: rust/src/api/server.rs:404,484. -/
def serde : Writer := ⟨false, Dec.display⟩

/-- `cheshire/generate-string`: clj/src/limabean/adapter/pod.clj:29. -/
def jackson : Writer := ⟨true, Clj.decText⟩

mutual
/-- The text of a value. -/
def Writer.write (w : Writer) : Json → Str
  | .null => str% "null"
  | .bool true => str% "true"
  | .bool false => str% "false"
  | .num d => w.number d
  | .str s => quote w.upper s
  | .arr l => '[' :: (w.elements true l ++ [']'])
  | .obj l => '{' :: (w.members true l ++ ['}'])

/-- The elements of an array. -/
def Writer.elements (w : Writer) (first : Bool) : List Json → Str
  | [] => []
  | j :: l => (if first then [] else [',']) ++ (w.write j ++ w.elements false l)

/-- The entries of an object. -/
def Writer.members (w : Writer) (first : Bool) : List (Str × Json) → Str
  | [] => []
  | (k, j) :: l => (if first then [] else [',']) ++ (quote w.upper k ++ ':' :: (w.write j ++ w.members false l))
end

/-- White space of JSON. -/
def blank (c : Char) : Bool := c == ' ' || c == '\t' || c == '\n' || c == '\r'

/-- Without leading white space. -/
def skip (s : Str) : Str := s.dropWhile blank

/-- A decimal digit. -/
def digit (c : Char) : Bool := decide (48 ≤ c.toNat) && decide (c.toNat ≤ 57)

/-- The number which digits denote. -/
def digitsValue (l : Str) : Nat := l.foldl (fun n c => 10 * n + (c.toNat - 48)) 0

/-- The value of a hexadecimal digit. -/
def hexValue (c : Char) : Option Nat :=
  if digit c then some (c.toNat - 48)
  else if 97 ≤ c.toNat ∧ c.toNat ≤ 102 then some (c.toNat - 87)
  else if 65 ≤ c.toNat ∧ c.toNat ≤ 70 then some (c.toNat - 55)
  else none

/-- Four hexadecimal digits. -/
def hex4 : Str → Option (Nat × Str)
  | a :: b :: c :: d :: r => match hexValue a, hexValue b, hexValue c, hexValue d with
    | some a, some b, some c, some d => some (4096 * a + 256 * b + 16 * c + d, r)
    | _, _, _, _ => none
  | _ => none

/-- What follows `\u`: one unit of UTF-16, or two for a character beyond the first 65536. Half a pair is an error. -/
def readUnicode (s : Str) : Option (Char × Str) :=
  match hex4 s with
  | none => none
  | some (n, r) =>
    if 0xDC00 ≤ n ∧ n ≤ 0xDFFF then none
    else if 0xD800 ≤ n ∧ n ≤ 0xDBFF then
      match r with
      | '\\' :: 'u' :: r => match hex4 r with
        | some (m, r) => if 0xDC00 ≤ m ∧ m ≤ 0xDFFF then some (Char.ofNat (0x10000 + 0x400 * (n - 0xD800) + (m - 0xDC00)), r) else none
        | none => none
      | _ => none
    else some (Char.ofNat n, r)

/-- What follows a backslash. -/
def readEscape : Str → Option (Char × Str)
  | '"' :: r => some ('"', r)
  | '\\' :: r => some ('\\', r)
  | '/' :: r => some ('/', r)
  | 'b' :: r => some ('\x08', r)
  | 'f' :: r => some ('\x0c', r)
  | 'n' :: r => some ('\n', r)
  | 'r' :: r => some ('\r', r)
  | 't' :: r => some ('\t', r)
  | 'u' :: r => readUnicode r
  | _ => none

/-- The rest of a string after its opening quote. The first argument only ensures termination. -/
def readString : Nat → Str → Option (Str × Str)
  | 0, _ => none
  | _, [] => none
  | n + 1, c :: r =>
    if c = '"' then some ([], r)
    else if c = '\\' then
      match readEscape r with
      | some (x, r) => (readString n r).map fun p => (x :: p.1, p.2)
      | none => none
    else if c.toNat < 32 then none
    else (readString n r).map fun p => (c :: p.1, p.2)

/-- The decimals of a number, if there are any. -/
def readFraction : Str → Option (Str × Str)
  | '.' :: r => if r.takeWhile digit = [] then none else some (r.takeWhile digit, r.dropWhile digit)
  | s => some ([], s)

/-- The digits of an exponent. -/
def readPower (sign : Int) (r : Str) : Option (Int × Str) :=
  if r.takeWhile digit = [] then none else some (sign * digitsValue (r.takeWhile digit), r.dropWhile digit)

/-- The exponent of a number, if there is one. -/
def readExponent : Str → Option (Int × Str)
  | c :: r =>
    if c = 'e' ∨ c = 'E' then
      match r with
      | '-' :: r => readPower (-1) r
      | '+' :: r => readPower 1 r
      | r => readPower 1 r
    else some (0, c :: r)
  | [] => some (0, [])

/-- The decimal with a coefficient, a number of decimals and an exponent. -/
def scaled (m : Int) (decimals : Nat) (e : Int) : Dec :=
  if e ≤ decimals then ⟨m, (decimals - e).toNat⟩ else ⟨m * 10 ^ (e - decimals).toNat, 0⟩

/-- The sign of a number. -/
def readSign : Str → Int × Str
  | '-' :: r => (-1, r)
  | s => (1, s)

/-- A number. -/
def readNumber (s : Str) : Option (Dec × Str) :=
  let sign := readSign s
  let whole := sign.2.takeWhile digit
  if whole = [] ∨ (whole.head? = some '0' ∧ whole ≠ ['0']) then none
  else match readFraction (sign.2.dropWhile digit) with
    | none => none
    | some (decimals, r) => match readExponent r with
      | none => none
      | some (e, r) => some (scaled (sign.1 * digitsValue (whole ++ decimals)) decimals.length e, r)

mutual
/-- A value. The first argument only ensures termination. -/
def readValue : Nat → Str → Option (Json × Str)
  | 0, _ => none
  | n + 1, s => match skip s with
    | 'n' :: 'u' :: 'l' :: 'l' :: r => some (.null, r)
    | 't' :: 'r' :: 'u' :: 'e' :: r => some (.bool true, r)
    | 'f' :: 'a' :: 'l' :: 's' :: 'e' :: r => some (.bool false, r)
    | '"' :: r => (readString (r.length + 1) r).map fun p => (.str p.1, p.2)
    | '[' :: r => match skip r with
      | ']' :: r => some (.arr [], r)
      | r => (readElements n r).map fun p => (.arr p.1, p.2)
    | '{' :: r => match skip r with
      | '}' :: r => some (.obj [], r)
      | r => (readMembers n r).map fun p => (.obj p.1, p.2)
    | s => (readNumber s).map fun p => (.num p.1, p.2)

/-- The elements of an array, at least one, and the closing bracket. -/
def readElements : Nat → Str → Option (List Json × Str)
  | 0, _ => none
  | n + 1, s => match readValue n s with
    | none => none
    | some (j, r) => match skip r with
      | ']' :: r => some ([j], r)
      | ',' :: r => (readElements n r).map fun p => (j :: p.1, p.2)
      | _ => none

/-- The entries of an object, at least one, and the closing brace. -/
def readMembers : Nat → Str → Option (List (Str × Json) × Str)
  | 0, _ => none
  | n + 1, s => match skip s with
    | '"' :: r => match readString (r.length + 1) r with
      | none => none
      | some (k, r) => match skip r with
        | ':' :: r => match readValue n r with
          | none => none
          | some (j, r) => match skip r with
            | '}' :: r => some ([(k, j)], r)
            | ',' :: r => (readMembers n r).map fun p => ((k, j) :: p.1, p.2)
            | _ => none
        | _ => none
    | _ => none
end

/-- A whole text: one value and nothing but white space around it. -/
def read (s : Str) : Option Json :=
  match readValue (2 * s.length + 2) s with
  | some (j, r) => if skip r = [] then some j else none
  | none => none

mutual
/-- How deep arrays and objects are nested. -/
def nesting : Json → Nat
  | .arr l => nestingElements l + 1
  | .obj l => nestingMembers l + 1
  | _ => 0

/-- The deepest nesting of elements. -/
def nestingElements : List Json → Nat
  | [] => 0
  | j :: l => max (nesting j) (nestingElements l)

/-- The deepest nesting of entries. -/
def nestingMembers : List (Str × Json) → Nat
  | [] => 0
  | (_, j) :: l => max (nesting j) (nestingMembers l)
end

/-- `char::is_whitespace`. -/
def unicodeBlank (c : Char) : Bool :=
  (decide (9 ≤ c.toNat) && decide (c.toNat ≤ 13)) || c.toNat == 0x20 || c.toNat == 0x85 || c.toNat == 0xA0 || c.toNat == 0x1680 ||
    (decide (0x2000 ≤ c.toNat) && decide (c.toNat ≤ 0x200A)) || c.toNat == 0x2028 || c.toNat == 0x2029 || c.toNat == 0x202F ||
    c.toNat == 0x205F || c.toNat == 0x3000

/-- `str::trim`. -/
def trim (s : Str) : Str := ((s.dropWhile unicodeBlank).reverse.dropWhile unicodeBlank).reverse

/-- `read_line` until the end of input, without the line ends: the last line need not have one. rust/src/api/server.rs:90-94. -/
def rustLinesFrom (line : Str) : Str → List Str
  | [] => if line = [] then [] else [line.reverse]
  | c :: r => if c = '\n' then line.reverse :: rustLinesFrom [] r else rustLinesFrom (c :: line) r

/-- All lines of the input. -/
def rustLines (s : Str) : List Str := rustLinesFrom [] s

/-- `java.io.BufferedReader.readLine` until the end of input: a line ends with `\n`, `\r` or both. `cr` says that the last character was
`\r`. clj/src/limabean/adapter/pod.clj:20-23. -/
def javaLinesFrom (cr : Bool) (line : Str) : Str → List Str
  | [] => if line = [] then [] else [line.reverse]
  | c :: r =>
    if c = '\n' ∧ cr = true then javaLinesFrom false [] r
    else if c = '\n' then line.reverse :: javaLinesFrom false [] r
    else if c = '\r' then line.reverse :: javaLinesFrom true [] r
    else javaLinesFrom false (c :: line) r

/-- All lines which the client can read. -/
def javaLines (s : Str) : List Str := javaLinesFrom false [] s

/-- `write-line`: clj/src/limabean/adapter/pod.clj:13-18; `none` is the exception. -/
def writeLine (msg : Str) : Option Str :=
  if msg.any (· == '\n') then none else some (msg ++ ['\n'])

/-- A line of input as the server takes it: rust/src/api/server.rs:94-96,122-123. serde_json reads at most 127 arrays and objects within
one another. `error` is the text of its error. -/
def line (error : Str → Str) (s : Str) : Server.Line :=
  match read (trim s) with
  | some j => if nesting j < 128 then .json j else .garbage (error s)
  | none => .garbage (error s)

/-- `serve` from the text of its input to the text of its output: rust/src/api/server.rs:81-114, 400-425, 466-494. -/
def serveText (E : Ext) (L : BookLib) (orders : Nat → AMap Str (Account L) → AMap Str (Account L)) (error : Str → Str) (n : Nat)
    (s : Server E) (input : Str) : Str × Server.Exit :=
  let x := Server.serve E L orders n s ((rustLines input).map (line error))
  (x.1.flatMap fun r => serde.write (Wire.encResponse E r) ++ ['\n'], x.2)

end JsonText
end Limabean
