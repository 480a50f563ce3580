/-
How the server's life looks from outside: a sequence of lines, each answered by one response.
-/
import Verif.Server.Server

namespace Limabean
namespace Spec

variable {E : Ext} {L : BookLib}

/-- From server `s`, whose first request is number `n`, the lines are answered one by one by the responses, each line in
the condition that the lines before it left; the server ends in condition `s'`. -/
inductive Served (orders : Nat → AMap Str (Account L) → AMap Str (Account L)) :
    Nat → Server E → List Server.Line → List Response → Server E → Prop
  | nil (n s) : Served orders n s [] [] s
  | cons {n s s' s'' line lines r rs} (h : Server.dispatch E L (orders n) s line = some (s', r))
      (t : Served orders (n + 1) s' lines rs s'') : Served orders n s (line :: lines) (r :: rs) s''

/-- The line is a well-formed request. -/
def IsRequest (line : Server.Line) (r : Request) : Prop := ∃ j, line = .json j ∧ Wire.decRequest j = some r

/-- The error code of a response, if it is an error. -/
def errorCode (r : Response) : Option Int :=
  match r.payload with
  | .error c _ _ => some c
  | _ => none

/-- Two error data are the same up to the order of the reports. -/
def SameData : ErrorData → ErrorData → Prop
  | .none, .none => True
  | .reports l, .reports l' => l.Perm l'
  | .indexed l, .indexed l' => l.Perm l'
  | _, _ => False

/-- Two responses are the same up to the order of the reports in an error. -/
def SameResponse (r r' : Response) : Prop :=
  r.id = r'.id ∧
    (r.payload = r'.payload ∨
      ∃ c m d d', r.payload = .error c m d ∧ r'.payload = .error c m d' ∧ SameData d d')

/-- All directives and postings of a parsed ledger have spans:
rust/src/api/types/parser_type_conversions.rs:11-22 and 176-191. -/
def AllSpans (ds : List Raw.Directive) : Prop :=
  ∀ d ∈ ds, d.span.isSome ∧ ∀ t, d.variant = .transaction t → ∀ p ∈ t.postings, p.span.isSome

/-- The span of the element (directive or posting) at a position of the ledger. -/
def ElementSpan (ds : List Raw.Directive) (e : ElementIdx) (sp : Span) : Prop :=
  ∃ d, ds[e.directive]? = some d ∧
    (e.posting = none → d.span = some sp) ∧
    ∀ k, e.posting = some k → ∃ t q, d.variant = .transaction t ∧ t.postings[k]? = some q ∧ q.span = some sp

/-- A report with spans says what a report with positions says: same reason and annotation, at the span of the element, in
the context of the directive if the element is a posting, with the spans of the related elements in order. -/
structure Corresponds (E : Ext) (ds : List Raw.Directive) (r : Report) (i : IndexedReport) : Prop where
  reason : r.reason = E.reasonText i.reason
  annotation : r.annotation = i.annotation.map E.rowsText
  span : ElementSpan ds i.idx r.span
  noContext : i.idx.posting = none → r.contexts = none
  context : ∀ k, i.idx.posting = some k →
    ∃ name sp, r.contexts = some [(name, sp)] ∧ ElementSpan ds { directive := i.idx.directive } sp
  noRelated : i.related = none → r.related = none
  related : ∀ es, i.related = some es → ∃ l, r.related = some l ∧ List.Forall₂ (fun e x => ElementSpan ds e x.2) es l

/-- What comes out of booking the parsed ledger (`a`), and out of booking the same directives sent back (`b`): both panic,
both succeed with the same directives, or both fail with corresponding reports, up to their order. -/
def SameBooking (E : Ext) (ds : List Raw.Directive) (a b : Option (Server E × Response)) : Prop :=
  (a = none ∧ b = none) ∨
  ∃ s id s' id', (∃ out, a = some (s, { id := id, payload := .booked out }) ∧
      b = some (s', { id := id', payload := .booked out })) ∨
    ∃ m m' l es es', a = some (s, { id := id, payload := .error 2 m (.reports l) }) ∧
      b = some (s', { id := id', payload := .error 3 m' (.indexed es) }) ∧ es.Perm es' ∧
      List.Forall₂ (Corresponds E ds) l es'

end Spec
end Limabean
