/-
Clojure data as the front end reads it from the server and writes it back: clj/src/limabean/adapter/pod.clj.

Maps have keywords as keys, given without the colon. Numbers are `Dec`: an integer if the scale is 0, else a big decimal. The
iteration order of sets and maps is a parameter. `none` stands for an exception. Not modelled: duplicates in an array which
becomes a set (the server writes hash sets); the text of JSON.
-/
import Verif.Server.Wire
import Verif.Basic.AMap

namespace Limabean
namespace Clj

/-- Clojure data. -/
inductive Data
  | nil
  | bool (b : Bool)
  | num (d : Dec)
  | str (s : Str)
  | kw (s : Str)
  | date (d : Date)
  | map (l : List (Str × Data))
  | vec (l : List Data)
  | set (l : List Data)

namespace Data

/-- `(get m k)`, also `(k m)` with a keyword: `nil` if there is no entry, or if it is not a map. -/
def get (m : Data) (k : Str) : Data := match m with
  | .map l => (AMap.get l k).getD .nil
  | _ => .nil

/-- Everything but `nil` and `false` counts as true. -/
def truthy : Data → Bool
  | .nil => false
  | .bool b => b
  | _ => true

/-- `(or a b)`. -/
def or (a b : Data) : Data := if a.truthy then a else b

/-- `(assoc m k v)`, `nil` being the empty map; other data than maps make it throw, which is not modelled: such data stay
unchanged. -/
def assoc (m : Data) (k : Str) (v : Data) : Data := match m with
  | .map l => .map (AMap.set l k v)
  | .nil => .map [(k, v)]
  | x => x

/-- `(contains? m k)` on a map. -/
def has (m : Data) (k : Str) : Bool := match m with
  | .map l => (AMap.get l k).isSome
  | _ => false

/-- `(get v i)` on a vector: `nil` beyond its end, for an index which is no natural number, and for other data than vectors. -/
def nth (v i : Data) : Data := match v, i with
  | .vec l, .num ⟨m, 0⟩ => if 0 ≤ m then (l[m.toNat]?).getD .nil else .nil
  | _, _ => .nil

/-- The elements of a vector, in a sequential destructuring or a loop. -/
def elems : Data → List Data
  | .vec l => l
  | .set l => l
  | _ => []

/-- `(keyword x)`: `nil` unless `x` is a keyword or a string (clojure.core/keyword). -/
def keyword : Data → Data
  | .kw s => .kw s
  | .str s => .kw s
  | _ => .nil

end Data

/-- `coerce-arrays`: clj/src/limabean/adapter/pod.clj:44-47. -/
def isSetKey (key : Option Str) : Bool :=
  key == some (str% "currencies") || key == some (str% "tags") || key == some (str% "links")

/-- Entries collected into a map one after the other: later ones replace earlier ones. -/
def collect (l : List (Str × Data)) : AMap Str Data := l.foldl (fun m p => AMap.set m p.1 p.2) []

mutual
/-- `cheshire/parse-string` with keywords as keys and `coerce-arrays`: clj/src/limabean/adapter/pod.clj:49-56. `key` is the name of
the entry which has this value; the elements of an array have none. -/
def ofJson (ord : List Data → List Data) (key : Option Str) : Json → Data
  | .null => .nil
  | .bool b => .bool b
  | .num d => .num d
  | .str s => .str s
  | .arr l => if isSetKey key then .set (ord (ofJsons ord l)) else .vec (ofJsons ord l)
  | .obj l => .map (collect (ofEntries ord l))

/-- The elements of an array. -/
def ofJsons (ord : List Data → List Data) : List Json → List Data
  | [] => []
  | j :: l => ofJson ord none j :: ofJsons ord l

/-- The entries of an object. -/
def ofEntries (ord : List Data → List Data) : List (Str × Json) → List (Str × Data)
  | [] => []
  | (k, j) :: l => (k, ofJson ord (some k) j) :: ofEntries ord l
end

/-- The function of `convert-values` on the entry `:date`: clj/src/limabean/adapter/pod.clj:39. A string which is no date makes
it throw. -/
def convertDate (m : AMap Str Data) : Option (AMap Str Data) :=
  match AMap.get m (str% "date") with
  | some (.str s) => (Wire.parseDate s).map fun d => AMap.set m (str% "date") (.date d)
  | _ => some m

/-- The function of `convert-values` on the entries `:dct` and `:booking`: clj/src/limabean/adapter/pod.clj:40-41. -/
def convertKeyword (k : Str) (m : AMap Str Data) : AMap Str Data :=
  match AMap.get m k with
  | some x => AMap.set m k x.keyword
  | none => m

/-- The function of `convert-values` on a map: clj/src/limabean/adapter/pod.clj:37-41. -/
def convertMap (m : AMap Str Data) : Option Data :=
  (convertDate m).map fun m => .map (convertKeyword (str% "booking") (convertKeyword (str% "dct") m))

mutual
/-- `convert-values`: clj/src/limabean/adapter/pod.clj:34-42. `postwalk` visits the parts first; keys and entries are visited as
well, but no map is among them. -/
def convertValues : Data → Option Data
  | .map l => (convertEntries l).bind convertMap
  | .vec l => (convertAll l).map .vec
  | .set l => (convertAll l).map .set
  | .nil => some .nil
  | .bool b => some (.bool b)
  | .num d => some (.num d)
  | .str s => some (.str s)
  | .kw s => some (.kw s)
  | .date d => some (.date d)

/-- The elements of a vector or set. -/
def convertAll : List Data → Option (List Data)
  | [] => some []
  | x :: l => match convertValues x, convertAll l with
    | some x, some l => some (x :: l)
    | _, _ => none

/-- The entries of a map. -/
def convertEntries : List (Str × Data) → Option (List (Str × Data))
  | [] => some []
  | (k, x) :: l => match convertValues x, convertEntries l with
    | some x, some l => some ((k, x) :: l)
    | _, _ => none
end

/-- What the front end makes of a JSON value: `read-msg`, clj/src/limabean/adapter/pod.clj:49-56. -/
def decode (ord : List Data → List Data) (key : Option Str) (j : Json) : Option Data := convertValues (ofJson ord key j)

mutual
/-- `cheshire/generate-string`: clj/src/limabean/adapter/pod.clj:28-31, with the encoder for dates, clj/src/limabean/adapter/json.clj:13-17.
`ordm` is the iteration order of the maps. -/
def toJson (ordm : List (Str × Json) → List (Str × Json)) : Data → Json
  | .nil => .null
  | .bool b => .bool b
  | .num d => .num d
  | .str s => .str s
  | .kw s => .str s
  | .date d => .str (Wire.fmtDate d)
  | .map l => .obj (ordm (entriesToJson ordm l))
  | .vec l => .arr (toJsons ordm l)
  | .set l => .arr (toJsons ordm l)

/-- The elements of a vector or set. -/
def toJsons (ordm : List (Str × Json) → List (Str × Json)) : List Data → List Json
  | [] => []
  | x :: l => toJson ordm x :: toJsons ordm l

/-- The entries of a map. -/
def entriesToJson (ordm : List (Str × Json) → List (Str × Json)) : List (Str × Data) → List (Str × Json)
  | [] => []
  | (k, x) :: l => (k, toJson ordm x) :: entriesToJson ordm l
end

end Clj
end Limabean
