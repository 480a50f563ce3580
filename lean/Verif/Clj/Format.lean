/-
The text of directives: clj/src/limabean/core/format.clj.

`txt` is the text of data for which this file does not fix it. Not modelled: exceptions for data of another shape than directives
have (a metadata value which is neither a map nor `nil`, tags which are no collection); `str/upper-case` beyond ASCII.
-/
import Verif.Clj.Spans
import Verif.Clj.Cell
import Verif.Clj.Order

namespace Limabean
namespace Clj

/-- `(str x)`. The text of a date is that of `LocalDate.toString`, which for four-digit years is that of the server. -/
def javaStr (txt : Data → Str) : Data → Str
  | .nil => []
  | .str s => s
  | .kw s => ':' :: s
  | .num d => decText d
  | .date d => Wire.fmtDate d
  | .bool true => str% "true"
  | .bool false => str% "false"
  | x => txt x

/-- What `print` writes for one argument: as `str`, except for `nil`, big decimals and dates. -/
def printed (txt : Data → Str) : Data → Str
  | .nil => str% "nil"
  | .num d => if d.s = 0 then decText d else decText d ++ ['M']
  | .date d => txt (.date d)
  | x => javaStr txt x

/-- What `%s` makes of an argument in `format`. -/
def formatted (txt : Data → Str) : Data → Str
  | .nil => str% "null"
  | x => javaStr txt x

/-- `dct-type`: format.clj:4-11. -/
def dctType (d : Data) : Data :=
  match d.get (str% "dct") with
  | .kw t => if t = str% "txn" then (d.get (str% "flag")).or (.str (str% "txn")) else .str t
  | _ => .str (str% "nil")

/-- `double-quote`: format.clj:13-16. -/
def doubleQuote : Data → Data
  | .str s => .str ('"' :: s ++ ['"'])
  | _ => .bool false

/-- `prefix`: format.clj:18-21. -/
def prefixed (x : Data) (p : Char) : Data :=
  match x with
  | .str s => .str (p :: s)
  | _ => .bool false

/-- `booking->str`: format.clj:23-26. -/
def bookingText : Data → Data
  | .kw s => doubleQuote (.str ((s.map Char.toUpper).map fun c => if c = '-' then '_' else c))
  | _ => .bool false

/-- `(print "" x y ...)`: a space before each. -/
def words (l : List Str) : Str := l.flatMap fun s => ' ' :: s

/-- `print-tags-and-links-inline`: format.clj:28-31. -/
def tagsInline (txt : Data → Str) (tags links : Data) : Str :=
  words (tags.elems.map fun t => printed txt (prefixed t '#')) ++ words (links.elems.map fun l => printed txt (prefixed l '^'))

/-- `print-tags-and-links-on-separate-lines`: format.clj:33-36. -/
def tagLines (txt : Data → Str) (indent : Str) (tags links : Data) : Str :=
  (tags.elems.flatMap fun t => indent ++ javaStr txt (prefixed t '#') ++ ['\n']) ++
    links.elems.flatMap fun l => indent ++ javaStr txt (prefixed l '^') ++ ['\n']

/-- `meta-value->str`: format.clj:38-50. -/
def metaText (txt : Data → Str) (v : Data) : Data :=
  match v with
  | .nil => .str []
  | v =>
    if v.has (str% "acc") then v.get (str% "acc")
    else if v.has (str% "units") && v.has (str% "cur") then
      .str (javaStr txt (v.get (str% "units")) ++ ' ' :: formatted txt (v.get (str% "cur")))
    else if v.has (str% "string") then doubleQuote (v.get (str% "string"))
    else if v.has (str% "bool") then .str ((javaStr txt (v.get (str% "bool"))).map Char.toUpper)
    else if v.has (str% "cur") then v.get (str% "cur")
    else if v.has (str% "number") then .str (javaStr txt (v.get (str% "number")))
    else if v.has (str% "tag") then prefixed (v.get (str% "tag")) '#'
    else if v.has (str% "link") then prefixed (v.get (str% "link")) '^'
    else if v.has (str% "date") then .str (javaStr txt (v.get (str% "date")))
    else .nil

/-- One line of `print-meta-key-values-on-separate-lines`: format.clj:55-60. -/
def metaLine (txt : Data → Str) (indent : Str) (m : Data) (k : Str) : Str :=
  let v := m.get k
  indent ++ k ++ [':'] ++ (if v.truthy then [' '] else []) ++ formatted txt (metaText txt v) ++ ['\n']

/-- The keys of a map. -/
def Data.keys : Data → List Str
  | .map l => l.map Prod.fst
  | _ => []

/-- `print-meta-key-values-on-separate-lines`: format.clj:52-60. -/
def metaLines (txt : Data → Str) (indent : Str) (m : Data) : Str :=
  (sortBy cmpStr m.keys).flatMap (metaLine txt indent m)

/-- `(when-let [x e] (print s (f x)))`. -/
def whenLet (x : Data) (f : Data → Str) : Str := if x.truthy then f x else []

/-- The result of `(str/replace-first s #"^,? " "")`: format.clj:75. -/
def dropLead : Str → Str
  | ',' :: ' ' :: s => s
  | ' ' :: s => s
  | s => s

/-- `cost->str`: format.clj:62-75. -/
def costText (txt : Data → Str) (c : Data) : Str :=
  let bare :=
    (if (c.get (str% "per-unit")).truthy then javaStr txt (c.get (str% "per-unit"))
      else whenLet (c.get (str% "total")) fun t => str% "# " ++ javaStr txt t) ++
    whenLet (c.get (str% "cur")) (fun x => ' ' :: printed txt x) ++
    whenLet (c.get (str% "date")) (fun x => str% ", " ++ javaStr txt x) ++
    whenLet (doubleQuote (c.get (str% "label"))) (fun x => str% ", " ++ printed txt x) ++
    whenLet (c.get (str% "merge")) fun _ => str% ", *"
  ['{'] ++ dropLead bare ++ ['}']

/-- `price->str`: format.clj:77-86. -/
def priceText (txt : Data → Str) (p : Data) : Str :=
  ['@'] ++
    (if (p.get (str% "per-unit")).truthy then ' ' :: javaStr txt (p.get (str% "per-unit"))
      else whenLet (p.get (str% "total")) fun t => str% " # " ++ javaStr txt t) ++
    whenLet (p.get (str% "cur")) fun x => ' ' :: printed txt x

/-- `print-posting` and `posting->str`: format.clj:88-104. -/
def postingText (txt : Data → Str) (p : Data) : Str :=
  [' '] ++
    whenLet (p.get (str% "flag")) (fun x => ' ' :: printed txt x) ++
    ' ' :: printed txt (p.get (str% "acc")) ++
    whenLet (p.get (str% "units")) (fun x => ' ' :: javaStr txt x) ++
    whenLet (p.get (str% "cur")) (fun x => ' ' :: printed txt x) ++
    whenLet ((p.get (str% "cost")).or (p.get (str% "cost-spec"))) (fun x => ' ' :: costText txt x) ++
    whenLet ((p.get (str% "price")).or (p.get (str% "price-spec"))) (fun x => ' ' :: priceText txt x) ++
    ['\n'] ++
    tagLines txt (str% "  ") (p.get (str% "tags")) (p.get (str% "links")) ++
    whenLet (p.get (str% "metadata")) (metaLines txt (str% "  "))

/-- `print-dct-common-header-fields`: format.clj:106-108. -/
def commonHeader (txt : Data → Str) (d : Data) : Str :=
  javaStr txt (d.get (str% "date")) ++ ' ' :: printed txt (dctType d)

/-- `print-txn-specific-header-fields`: format.clj:110-117. -/
def txnFields (txt : Data → Str) (d : Data) : Str :=
  let payee := doubleQuote (d.get (str% "payee"))
  let narration := doubleQuote (d.get (str% "narration"))
  if payee.truthy && narration.truthy then words [printed txt payee, printed txt narration]
  else if payee.truthy then words [printed txt payee, str% "\"\""]
  else if narration.truthy then words [printed txt narration]
  else []

/-- `txn-header->str`: format.clj:119-122. -/
def txnHeader (txt : Data → Str) (d : Data) : Str := commonHeader txt d ++ txnFields txt d

/-- `(str/join "," l)` of strings. -/
def joinComma : List Str → Str
  | [] => []
  | [s] => s
  | s :: l => s ++ ',' :: joinComma l

/-- The part of `directive->str` which depends on the kind: format.clj:129-150. -/
def kindFields (txt : Data → Str) (d : Data) : Str :=
  match d.get (str% "dct") with
  | .kw k =>
    if k = str% "txn" then txnFields txt d
    else if k = str% "price" then
      words [printed txt (d.get (str% "cur")), javaStr txt ((d.get (str% "price")).get (str% "per-unit")),
        printed txt ((d.get (str% "price")).get (str% "cur"))]
    else if k = str% "balance" then
      words [printed txt (d.get (str% "acc")), javaStr txt (d.get (str% "units")), printed txt (d.get (str% "cur"))] ++
        whenLet (d.get (str% "tolerance")) fun t => str% " ~ " ++ javaStr txt t
    else if k = str% "open" then
      words [printed txt (d.get (str% "acc"))] ++
        whenLet (d.get (str% "currencies")) (fun cs => words [joinComma (sortBy cmpStr (cs.elems.map (javaStr txt)))]) ++
        whenLet (bookingText (d.get (str% "booking"))) fun b => words [printed txt b]
    else if k = str% "close" then words [printed txt (d.get (str% "acc"))]
    else if k = str% "commodity" then words [printed txt (d.get (str% "cur"))]
    else if k = str% "pad" then words [printed txt (d.get (str% "acc")), printed txt (d.get (str% "source"))]
    else if k = str% "document" then words [printed txt (d.get (str% "acc")), printed txt (doubleQuote (d.get (str% "path")))]
    else if k = str% "note" then words [printed txt (d.get (str% "acc")), printed txt (doubleQuote (d.get (str% "comment")))]
    else if k = str% "event" then
      words [printed txt (doubleQuote (d.get (str% "type"))), printed txt (doubleQuote (d.get (str% "description")))]
    else if k = str% "query" then
      words [printed txt (doubleQuote (d.get (str% "name"))), printed txt (doubleQuote (d.get (str% "content")))]
    else if k = str% "custom" then
      words (printed txt (doubleQuote (d.get (str% "type"))) ::
        (d.get (str% "values")).elems.map fun v => printed txt (metaText txt v))
    else []
  | _ => []

/-- `directive->str`: format.clj:124-161. -/
def directiveText (txt : Data → Str) (d : Data) : Str :=
  commonHeader txt d ++ kindFields txt d ++
    (if isKw (d.get (str% "dct")) (str% "custom") then [] else tagsInline txt (d.get (str% "tags")) (d.get (str% "links"))) ++
    ['\n'] ++
    (if isKw (d.get (str% "dct")) (str% "custom") then
      tagLines txt (str% "  ") (d.get (str% "tags")) (d.get (str% "links")) else []) ++
    whenLet (d.get (str% "metadata")) (metaLines txt (str% "  ")) ++
    (if isKw (d.get (str% "dct")) (str% "txn") then (d.get (str% "postings")).elems.flatMap (postingText txt) else [])

/-- The texts from which synthetic spans are made: format.clj:163-188. -/
def texts (txt : Data → Str) : Texts where
  header := txnHeader txt
  posting := postingText txt
  directive := directiveText txt

end Clj
end Limabean
