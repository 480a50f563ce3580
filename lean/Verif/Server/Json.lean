/-
JSON values, and the part of serde's derived (de)serialisation which the server uses.

The text form (serde_json, cheshire) is modelled apart, in `Server/JsonText`: here a request is a JSON value. One effect of the text form matters and is
kept: serde can only give a borrowed `&str` when the text of the string has no escapes, which for a writer that escapes
nothing but what JSON requires means: no quote, backslash or control character. `Decimal`s are written and read with all
their digits (rust_decimal with `serde-arbitrary-precision`, rust/Cargo.toml:38-41), so numbers are exact.
Simplified: `Decimal` is not read from a JSON string; sets and maps keep the order in which they were read.
-/
import Verif.Basic.AMap
import Verif.Basic.Dec
import Verif.Basic.Str

namespace Limabean

/-- A JSON value. -/
inductive Json
  | null
  | bool (b : Bool)
  | num (d : Dec)
  | str (s : Str)
  | arr (l : List Json)
  | obj (l : List (Str × Json))

namespace Json

/-- A character which JSON texts must escape. -/
def escaped (c : Char) : Bool := c == '"' || c == '\\' || decide (c.toNat < 32)

/-- The string can be borrowed from the request text. -/
def borrowable (s : Str) : Bool := s.all fun c => !escaped c

/-- The values of a key. -/
def vals (k : Str) (l : List (Str × Json)) : List Json :=
  l.filterMap fun p => if p.1 = k then some p.2 else none

/-- A field of a derived struct: `none` is the error "duplicate field", `some none` an absent field. -/
def field (l : List (Str × Json)) (k : Str) : Option (Option Json) :=
  match vals k l with
  | [] => some none
  | [x] => some (some x)
  | _ => none

/-- A field which has to be present. -/
def req {α : Type} (l : List (Str × Json)) (k : Str) (dec : Json → Option α) : Option α :=
  match field l k with
  | some (some j) => dec j
  | _ => none

/-- A field of type `Option`. -/
def opt {α : Type} (l : List (Str × Json)) (k : Str) (dec : Json → Option α) : Option (Option α) :=
  match field l k with
  | some (some .null) => some none
  | some (some j) => (dec j).map some
  | some none => some none
  | none => none

/-- A field of type `bool` with `#[serde(default)]`. -/
def dfltFalse (l : List (Str × Json)) (k : Str) : Option Bool :=
  match field l k with
  | some (some (.bool b)) => some b
  | some none => some false
  | _ => none

/-- An entry which is skipped if absent: `skip_serializing_if = "Option::is_none"`. -/
def entry {α : Type} (k : Str) (x : Option α) (enc : α → Json) : List (Str × Json) :=
  match x with
  | some a => [(k, enc a)]
  | none => []

/-- A `Cow` or owned string. -/
def toStr : Json → Option Str
  | .str s => some s
  | _ => none

/-- A borrowed string. -/
def toRef : Json → Option Str
  | .str s => if borrowable s then some s else none
  | _ => none

/-- A `Decimal`. -/
def toDec : Json → Option Dec
  | .num d => some d
  | _ => none

/-- A `bool`. -/
def toBool : Json → Option Bool
  | .bool b => some b
  | _ => none

/-- A `usize`. -/
def toNat : Json → Option Nat
  | .num ⟨m, 0⟩ => if 0 ≤ m then some m.toNat else none
  | _ => none

/-- A `usize` as JSON. -/
def nat (n : Nat) : Json := .num ⟨n, 0⟩

/-- `Option`-valued traversal, as `Vec`, `HashSet` and `HashMap` are read. -/
def all {α β : Type} (f : α → Option β) : List α → Option (List β)
  | [] => some []
  | a :: l => match f a, all f l with
    | some b, some bs => some (b :: bs)
    | _, _ => none

/-- A JSON array. -/
def toList {α : Type} (dec : Json → Option α) : Json → Option (List α)
  | .arr l => all dec l
  | _ => none

/-- Entries inserted into a map one after the other: of several with the same key the last stays. -/
def inserted {α : Type} (l : List (Str × α)) : List (Str × α) := l.foldl (fun m p => AMap.set m p.1 p.2) []

/-- A JSON object read as a `HashMap` with borrowed keys. -/
def toMap {α : Type} (dec : Json → Option α) : Json → Option (List (Str × α))
  | .obj l => (all (fun p => match borrowable p.1, dec p.2 with
      | true, some a => some (p.1, a)
      | _, _ => none) l).map inserted
  | _ => none

end Json
end Limabean
