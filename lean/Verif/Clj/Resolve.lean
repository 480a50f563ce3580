/-
How the loader gives spans to booked directives and to error reports: clj/src/limabean/adapter/loader.clj:91-154.

`none` stands for an exception. `txt` is `str` on data other than strings, keywords and `nil`.
-/
import Verif.Clj.Data

namespace Limabean
namespace Clj

/-- `(str x)`. -/
def strOf (txt : Data → Str) : Data → Str
  | .nil => []
  | .str s => s
  | .kw s => ':' :: s
  | x => txt x

/-- `(str/join " " l)`. -/
def joinSpace (txt : Data → Str) : List Data → Str
  | [] => []
  | [x] => strOf txt x
  | x :: l => strOf txt x ++ ' ' :: joinSpace txt l

/-- `(merge m (select-keys raw [k]))`. -/
def copyField (raw : Data) (m : Data) (k : Str) : Data := if raw.has k then m.assoc k (raw.get k) else m

/-- `merge-span-and-provenance`: clj/src/limabean/adapter/loader.clj:91-93. -/
def mergeSpanAndProvenance (booked raw : Data) : Data :=
  copyField raw (copyField raw (copyField raw booked (str% "span")) (str% "span-p")) (str% "provenance")

/-- The function on postings in `resolve-directives-from-raw`: clj/src/limabean/adapter/loader.clj:104-109. -/
def resolvePosting (rawPostings : Data) (p : Data) : Data :=
  mergeSpanAndProvenance p (rawPostings.nth (p.get (str% "idx")))

/-- The function on directives in `resolve-directives-from-raw`: clj/src/limabean/adapter/loader.clj:98-109. -/
def resolveDirective (raw : Data) (d : Data) : Data :=
  let rawDct := raw.nth (d.get (str% "idx"))
  let merged := mergeSpanAndProvenance d rawDct
  if (d.get (str% "postings")).truthy then
    merged.assoc (str% "postings")
      (.vec ((merged.get (str% "postings")).elems.map (resolvePosting (rawDct.get (str% "postings")))))
  else merged

/-- `resolve-directives-from-raw`: clj/src/limabean/adapter/loader.clj:95-110. -/
def resolveDirectives (booked raw : Data) : Data := .vec (booked.elems.map (resolveDirective raw))

/-- `dct-name`: clj/src/limabean/adapter/loader.clj:112-115. -/
def dctName (dct : Data) : Option Str :=
  match dct.get (str% "dct") with
  | .kw s => some (if s = str% "txn" then str% "transaction" else s)
  | .str s => some s
  | _ => none

/-- What `resolve-report-idx` returns; absent entries are `nil`. -/
structure Located where
  description : Data
  span : Data
  context : Data

/-- The description in `resolve-report-idx`: clj/src/limabean/adapter/loader.clj:125-129. -/
def describe (txt : Data → Str) (dct pst : Data) : Option Data := do
  let kind ←
    if pst.truthy then some (.str (str% "posting"))
    else if dct.truthy then (dctName dct).map .str
    else some .nil
  if (dct.get (str% "provenance")).truthy && ((pst.get (str% "span")).or (dct.get (str% "span"))).truthy then
    return .str (strOf txt kind ++ str% ", modified by " ++ joinSpace txt (dct.get (str% "provenance")).elems)
  else return kind

/-- The span, else the synthetic span of an element: clj/src/limabean/adapter/loader.clj:121-123. -/
def spanOf (x : Data) : Data := (x.get (str% "span")).or (x.get (str% "span-p"))

/-- `resolve-report-idx`: clj/src/limabean/adapter/loader.clj:117-130. -/
def resolveReportIdx (txt : Data → Str) (idx raw : Data) : Option Located :=
  let dct := raw.nth (idx.nth (.num ⟨0, 0⟩))
  let pst := (dct.get (str% "postings")).nth (idx.nth (.num ⟨1, 0⟩))
  (describe txt dct pst).map fun description =>
    { description := description
      span := if ((spanOf pst).or (spanOf dct)).truthy then (spanOf pst).or (spanOf dct) else .nil
      context := if pst.truthy then .vec [.str (str% "txn"), spanOf dct] else .nil }

/-- `resolve-report-related`: clj/src/limabean/adapter/loader.clj:132-137. -/
def resolveReportRelated (txt : Data → Str) (raw idx : Data) : Option Data :=
  (resolveReportIdx txt idx raw).map fun l => .vec [l.description, l.span]

/-- `(assoc m k v)` if there is such a value. -/
def assocIf (c : Bool) (m : Data) (k : Str) (v : Data) : Data := if c then m.assoc k v else m

/-- `resolve-report-from-raw`: clj/src/limabean/adapter/loader.clj:139-150. -/
def resolveReportFromRaw (txt : Data → Str) (report raw : Data) : Option Data := do
  let l ← resolveReportIdx txt (report.get (str% "idx")) raw
  let related ← Json.all (resolveReportRelated txt raw) (report.get (str% "related")).elems
  let m := copyField report (copyField report (.map []) (str% "reason")) (str% "annotation")
  let m := (m.assoc (str% "message") (.str (str% "invalid " ++ strOf txt l.description))).assoc (str% "span") l.span
  let m := assocIf l.context.truthy m (str% "context") l.context
  return assocIf (report.get (str% "related")).truthy m (str% "related") (.vec related)

/-- `resolve-reports-from-raw`: clj/src/limabean/adapter/loader.clj:152-154. The reports are made when they are read; an exception
then is not told from one here. -/
def resolveReportsFromRaw (txt : Data → Str) (reports raw : Data) : Option (List Data) :=
  Json.all (fun r => resolveReportFromRaw txt r raw) reports.elems

end Clj
end Limabean
