/-
Synthetic spans for directives which plugins made: clj/src/limabean/adapter/synthetic_spans.clj, with `elements-xf` of
clj/src/limabean/core/format.clj and `map-n` of clj/src/limabean/util.clj.

`none` stands for an exception.
-/
import Verif.Clj.Resolve
import Verif.Server.Server

namespace Limabean
namespace Clj

/-- The texts of directives: clj/src/limabean/core/format.clj. -/
structure Texts where
  /-- `txn-header->str` -/
  header : Data → Str
  /-- `posting->str` -/
  posting : Data → Str
  /-- `directive->str` -/
  directive : Data → Str

/-- `(= x :s)`. -/
def isKw (x : Data) (s : Str) : Bool :=
  match x with
  | .kw s' => s' == s
  | _ => false

/-- The strings of `elements-xf` for one directive: clj/src/limabean/core/format.clj:181-188. -/
def elementTexts (T : Texts) (d : Data) : List Str :=
  if isKw (d.get (str% "dct")) (str% "txn") then T.header d :: (d.get (str% "postings")).elems.map T.posting else [T.directive d]

/-- The element which `create-with-provenance` builds: clj/src/limabean/adapter/synthetic_spans.clj:14-17. -/
def spanRequest (txt : Data → Str) (d : Data) (s : Str) : SyntheticSpan :=
  { name := str% "Synthetic directive from " ++ joinSpace txt (d.get (str% "provenance")).elems, content := s }

/-- The requests of `create-with-provenance`: clj/src/limabean/adapter/synthetic_spans.clj:10-18. -/
def spanRequests (T : Texts) (txt : Data → Str) (ds : List Data) : List SyntheticSpan :=
  (ds.filter fun d => (d.get (str% "provenance")).truthy).flatMap fun d => (elementTexts T d).map (spanRequest txt d)

/-- `create-with-provenance`: clj/src/limabean/adapter/synthetic_spans.clj:7-21. `create` asks the server; `none` if it answers with an
error. -/
def createWithProvenance (T : Texts) (txt : Data → Str) (create : List SyntheticSpan → Option (List Data)) (ds : List Data) :
    Option (List Data) :=
  if (spanRequests T txt ds).isEmpty then some [] else create (spanRequests T txt ds)

/-- `n-spans`: clj/src/limabean/adapter/synthetic_spans.clj:23-26. -/
def nSpans (d : Data) : Nat :=
  if (d.get (str% "provenance")).truthy then (d.get (str% "postings")).elems.length + 1 else 0

/-- The function given to `map-n`: clj/src/limabean/adapter/synthetic_spans.clj:34-41. -/
def mergeSpans (d : Data) (spans : List Data) : Data :=
  let r := d.assoc (str% "span-p") ((spans.head?).getD .nil)
  if spans.tail.isEmpty then r
  else r.assoc (str% "postings")
    (.vec (List.zipWith (fun p s => p.assoc (str% "span-p") s) (d.get (str% "postings")).elems spans.tail))

/-- `map-n` with these functions: clj/src/limabean/util.clj:16-29. -/
def mapN : List Data → List Data → List Data
  | [], _ => []
  | d :: ds, spans =>
    if nSpans d = 0 then d :: mapN ds spans else mergeSpans d (spans.take (nSpans d)) :: mapN ds (spans.drop (nSpans d))

/-- `merge-with-provenance`: clj/src/limabean/adapter/synthetic_spans.clj:28-44. -/
def mergeWithProvenance (T : Texts) (txt : Data → Str) (create : List SyntheticSpan → Option (List Data)) (ds : List Data) :
    Option (List Data) :=
  (createWithProvenance T txt create ds).map fun spans => if spans.isEmpty then ds else mapN ds spans

end Clj
end Limabean
