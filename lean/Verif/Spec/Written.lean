/-
What a plugin made is as good as what the user wrote: data which stand for a directive, and how loading must end.
-/
import Verif.Spec.Understood
import Verif.Spec.Depth
import Verif.Spec.Plugins
import Verif.Clj.Valid
import Verif.Clj.Loader

namespace Limabean
namespace Spec

open Clj

/-- The data stand for the directive: they say what it says, without the metadata which are always lost (C44), pass the check of the front
end, can be sent, and carry no error; and only transactions have postings. -/
structure Writes (y : Data) (d : Raw.Directive) : Prop where
  content : DirectiveIs y (withoutLostMeta d)
  real : RealData y
  checked : validDct true y = true
  sendable : SendDirective y
  spans : SpansKept y
  noError : isErr y = false
  shallow : levels y < 126
  onlyTxn : y.get (str% "dct") = .kw (str% "txn") ∨ y.get (str% "postings") = .nil

/-- The same but for a synthetic span, which is there. -/
def WithSpan (y x : Data) : Prop := (∃ s, x.get (str% "span-p") = ofSpan s) ∧ ∀ k, k ≠ str% "span-p" → x.get k = y.get k

/-- What was passed on stays as it is; what a plugin made gets synthetic spans, also its postings. -/
def Spanned (y x : Data) : Prop :=
  if (y.get (str% "provenance")).truthy then
    (∃ s, x.get (str% "span-p") = ofSpan s) ∧
    List.Forall₂ WithSpan (y.get (str% "postings")).elems (x.get (str% "postings")).elems ∧
    ∀ k, k ≠ str% "span-p" → k ≠ str% "postings" → x.get k = y.get k
  else x = y

/-- The directive with this narration, if it is a transaction. -/
def withNarration (s : Str) (d : Raw.Directive) : Raw.Directive := match d.variant with
  | .transaction t => { d with variant := .transaction { t with narration := some s } }
  | _ => d

/-- What closes an account on this day. -/
def closing (date : Date) (acc : Str) : Raw.Directive := { span := none, date := date, variant := .close { acc := acc } }

/-- The ledger in which these accounts are closed right after they are opened. -/
def closedAtOnce (accs : List Str) (ds : List Raw.Directive) : List Raw.Directive :=
  ds.flatMap fun d => match d.variant with
    | .opn o => if o.acc ∈ accs then [d, closing d.date o.acc] else [d]
    | _ => [d]

/-- A transaction which a plugin has changed is marked with its name and has a synthetic span; other directives are as they were read. -/
def NarratedBy (ord : List Data → List Data) (name s : Str) (d : Raw.Directive) (x : Data) : Prop := match d.variant with
  | .transaction _ => x.get (str% "provenance") = .vec [.str name] ∧ x.get (str% "narration") = .str s ∧ ∃ sp, x.get (str% "span-p") = ofSpan sp
  | _ => x = ofDirective ord (withoutLostMeta d)

end Spec
end Limabean
