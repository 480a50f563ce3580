/-
Directives which agree but for what is attached to them: spans, tags, links and metadata.
-/
import Verif.Pod.BookingLib
import Verif.Spec.Order
import Verif.Spec.Wire

namespace Limabean
namespace Spec

/-- How attached data correspond. -/
structure Attached where
  tags : Option (List Str) → Option (List Str) → Prop
  links : Option (List Str) → Option (List Str) → Prop
  metadata : Option (List (Str × MetaValue)) → Option (List (Str × MetaValue)) → Prop

/-- Any attached data. -/
def Attached.any : Attached := ⟨fun _ _ => True, fun _ _ => True, fun _ _ => True⟩

/-- The same attached data, up to order. -/
def Attached.upToOrder : Attached := ⟨SameSet, SameSet, SameSet⟩

/-- The same attached data. -/
def Attached.same : Attached := ⟨Eq, Eq, Eq⟩

/-- Postings which agree but for span and attached data. -/
structure PostingLike (R : Attached) (p q : Raw.PostingSpec) : Prop where
  tags : R.tags p.tags q.tags
  links : R.links p.links q.links
  metadata : R.metadata p.metadata q.metadata
  rest : { p with span := none, tags := none, links := none, metadata := none } =
    { q with span := none, tags := none, links := none, metadata := none }

/-- Variants which agree but for spans and attached data of postings and the order of currencies. -/
def VariantLike (R : Attached) : Raw.Variant → Raw.Variant → Prop
  | .transaction t, .transaction u => List.Forall₂ (PostingLike R) t.postings u.postings ∧ { t with postings := [] } = { u with postings := [] }
  | .opn o, .opn o' => SameSet o.currencies o'.currencies ∧ { o with currencies := none } = { o' with currencies := none }
  | v, v' => v = v'

/-- Directives which agree but for spans, attached data and the order of currencies. -/
structure DirectiveLike (R : Attached) (d e : Raw.Directive) : Prop where
  date : d.date = e.date
  tags : R.tags d.tags e.tags
  links : R.links d.links e.links
  metadata : R.metadata d.metadata e.metadata
  variant : VariantLike R d.variant e.variant

/-- Booked postings which agree but for attached data; postings made by padding have none. -/
structure BookedPostingLike (R : Attached) (p q : Booked.Posting) : Prop where
  attached : (R.tags p.tags q.tags ∧ R.links p.links q.links ∧ R.metadata p.metadata q.metadata) ∨ (p = q ∧ p.idx = none)
  rest : { p with tags := none, links := none, metadata := none } = { q with tags := none, links := none, metadata := none }

/-- Booked variants which agree but for attached data of postings and the order of currencies. -/
def BookedVariantLike (R : Attached) : Booked.Variant → Booked.Variant → Prop
  | .transaction t, .transaction u =>
    List.Forall₂ (BookedPostingLike R) t.postings u.postings ∧ { t with postings := [] } = { u with postings := [] }
  | .opn o, .opn o' => SameSet o.currencies o'.currencies ∧ { o with currencies := none } = { o' with currencies := none }
  | v, v' => v = v'

/-- Booked directives which agree but for attached data and the order of currencies. -/
structure BookedLike (R : Attached) (d e : Booked.Directive) : Prop where
  idx : d.idx = e.idx
  date : d.date = e.date
  tags : R.tags d.tags e.tags
  links : R.links d.links e.links
  metadata : R.metadata d.metadata e.metadata
  variant : BookedVariantLike R d.variant e.variant

/-- What the booking library sees of a posting: the trait `PostingSpec`, rust/src/api/booking/types.rs:9-33. -/
def seenByLibrary (p : Raw.PostingSpec) : Str × Option Str × Option Dec × Option Raw.CostSpec × Option Raw.PriceSpec :=
  (p.acc, p.cur, p.units, p.costSpec, p.priceSpec)

/-- The library sees of postings only what the trait shows. -/
def Blind (L : BookLib) : Prop :=
  ∀ date ps ps' t inv bk, ps.map seenByLibrary = ps'.map seenByLibrary → L.book date ps t inv bk = L.book date ps' t inv bk

/-- The dates which the library gives to costs exist. It has them as `time::Date`, a type of dates of the calendar. -/
def DatesExist (L : BookLib) : Prop :=
  ∀ date ps t inv bk r, CalendarDate date → (∀ p ∈ ps, ∀ c ∈ p.costSpec, ∀ x ∈ c.date, CalendarDate x) →
    L.book date ps t inv bk = .ok r → ∀ i ∈ r.interpolated, ∀ lots ∈ i.cost, ∀ l ∈ lots, CalendarDate l.date

end Spec
end Limabean
