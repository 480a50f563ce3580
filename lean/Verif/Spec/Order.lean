/-
Directives which differ only in the order of tags, links, currencies and metadata, which are sets and maps.
-/
import Verif.Pod.Types

namespace Limabean
namespace Spec

/-- Both absent, or the same up to order. -/
def SameSet {α : Type} : Option (List α) → Option (List α) → Prop
  | none, none => True
  | some l, some l' => l.Perm l'
  | _, _ => False

/-- Postings which differ only in the order of tags, links and metadata. -/
structure ReorderedPosting (p q : Raw.PostingSpec) : Prop where
  tags : SameSet p.tags q.tags
  links : SameSet p.links q.links
  metadata : SameSet p.metadata q.metadata
  rest : { p with tags := none, links := none, metadata := none } = { q with tags := none, links := none, metadata := none }

/-- Variants which differ only in such orders. -/
def ReorderedVariant : Raw.Variant → Raw.Variant → Prop
  | .transaction t, .transaction u => List.Forall₂ ReorderedPosting t.postings u.postings ∧ { t with postings := [] } = { u with postings := [] }
  | .opn o, .opn o' => SameSet o.currencies o'.currencies ∧ { o with currencies := none } = { o' with currencies := none }
  | v, v' => v = v'

/-- Directives which differ only in such orders. -/
structure ReorderedDirective (d e : Raw.Directive) : Prop where
  span : d.span = e.span
  date : d.date = e.date
  tags : SameSet d.tags e.tags
  links : SameSet d.links e.links
  metadata : SameSet d.metadata e.metadata
  variant : ReorderedVariant d.variant e.variant

end Spec
end Limabean
