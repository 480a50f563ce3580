/-
What one would have to write into a beanfile to get what was booked, and when two booked directives are the same apart from what is
not printed.
-/
import Verif.Spec.Format

namespace Limabean
namespace Spec

/-- The cost of a booked posting, as one would write it: per unit. -/
def costWritten (c : Booked.Cost) : Raw.CostSpec :=
  { perUnit := some c.perUnit, cur := some c.cur, date := some c.date, label := c.label, merge := c.merge }

/-- The price of a booked posting, as one would write it: per unit. -/
def priceWritten (p : Booked.Price) : Raw.PriceSpec := { perUnit := some p.perUnit, cur := some p.cur }

/-- A booked posting, as one would write it. -/
def postingWritten (p : Booked.Posting) : Raw.PostingSpec :=
  { flag := p.flag, acc := p.acc, units := some p.units, cur := some p.cur, costSpec := p.cost.map costWritten
    priceSpec := p.price.map priceWritten, tags := p.tags, links := p.links, metadata := p.metadata }

/-- The fields of a booked directive, as one would write them. -/
def variantWritten : Booked.Variant → Raw.Variant
  | .transaction t => .transaction { flag := t.flag, payee := t.payee, narration := t.narration, postings := t.postings.map postingWritten }
  | .price p => .price p
  | .balance b => .balance b.raw
  | .opn o => .opn o
  | .close c => .close c
  | .commodity c => .commodity c
  | .pad p => .pad p
  | .document d => .document d
  | .note n => .note n
  | .event e => .event e
  | .query q => .query q
  | .custom c => .custom c

/-- A booked directive, as one would write it. -/
def asWritten (d : Booked.Directive) : Raw.Directive :=
  { date := d.date, tags := d.tags, links := d.links, metadata := d.metadata, variant := variantWritten d.variant }

/-- The same cost apart from the total. -/
def CostAlike (c c' : Booked.Cost) : Prop :=
  c.date = c'.date ∧ c.perUnit = c'.perUnit ∧ c.cur = c'.cur ∧ c.label = c'.label ∧ c.merge = c'.merge

/-- The same price apart from the total. -/
def PriceAlike (p p' : Booked.Price) : Prop := p.perUnit = p'.perUnit ∧ p.cur = p'.cur

/-- Both absent, or both present and alike. -/
def BothOrNone {α : Type} (R : α → α → Prop) : Option α → Option α → Prop
  | some a, some b => R a b
  | none, none => True
  | _, _ => False

/-- The same booked posting apart from its index, from totals, and from the order within sets and maps. -/
def SameBookedPosting (p q : Booked.Posting) : Prop :=
  p.flag = q.flag ∧ p.acc = q.acc ∧ p.units = q.units ∧ p.cur = q.cur ∧ BothOrNone CostAlike p.cost q.cost ∧
    BothOrNone PriceAlike p.price q.price ∧ SameElements p.tags q.tags ∧ SameElements p.links q.links ∧ SameElements p.metadata q.metadata

/-- The same fields of one kind. -/
def SameBookedVariant : Booked.Variant → Booked.Variant → Prop
  | .transaction t, .transaction t' => t.flag = t'.flag ∧ t.payee = t'.payee ∧ t.narration = t'.narration ∧
      List.Forall₂ SameBookedPosting t.postings t'.postings
  | .balance b, .balance b' => b.raw = b'.raw
  | .opn o, .opn o' => o.acc = o'.acc ∧ SameElements o.currencies o'.currencies ∧ o.booking = o'.booking
  | v, v' => v = v'

/-- The same booked directive apart from indices, from totals, from what booking noted on a balance, and from the order within sets
and maps. -/
def SameBooked (d d' : Booked.Directive) : Prop :=
  d.date = d'.date ∧ SameElements d.tags d'.tags ∧ SameElements d.links d'.links ∧ SameElements d.metadata d'.metadata ∧
    SameBookedVariant d.variant d'.variant

end Spec
end Limabean
