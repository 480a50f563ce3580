/-
Ledgers with other names for the currencies and another calendar.
-/
import Verif.Spec.Renaming

namespace Limabean
namespace Spec

/-- Other names for currencies, and other dates. -/
structure Relabel where
  cur : Str → Str
  date : Date → Date

variable (ρ : Relabel)

/-- A cost as written. -/
def Relabel.costSpec (c : Raw.CostSpec) : Raw.CostSpec := { c with cur := c.cur.map ρ.cur, date := c.date.map ρ.date }

/-- A price as written. -/
def Relabel.priceSpec (p : Raw.PriceSpec) : Raw.PriceSpec := { p with cur := p.cur.map ρ.cur }

/-- A posting as written. -/
def Relabel.posting (p : Raw.PostingSpec) : Raw.PostingSpec :=
  { p with cur := p.cur.map ρ.cur, costSpec := p.costSpec.map ρ.costSpec, priceSpec := p.priceSpec.map ρ.priceSpec }

/-- What an account is opened with. -/
def Relabel.opening (o : Raw.Open) : Raw.Open := { o with currencies := o.currencies.map fun l => l.map ρ.cur }

/-- A directive: its date, and currencies and dates wherever a directive has them by its syntax. Metadata and the values of custom
directives are left alone. -/
def Relabel.directive (d : Raw.Directive) : Raw.Directive :=
  { d with
    date := ρ.date d.date
    variant := match d.variant with
      | .transaction t => .transaction { t with postings := t.postings.map ρ.posting }
      | .balance b => .balance { b with cur := ρ.cur b.cur }
      | .opn o => .opn (ρ.opening o)
      | .price p => .price { cur := ρ.cur p.cur, price := { p.price with cur := ρ.cur p.price.cur } }
      | .commodity c => .commodity { cur := ρ.cur c.cur }
      | .close c => .close c
      | .pad p => .pad p
      | .document x => .document x
      | .note x => .note x
      | .event e => .event e
      | .query q => .query q
      | .custom c => .custom c }

/-- The tolerances for currencies. -/
def Relabel.tolerance (t : Tolerance) : Tolerance := { t with defaults := t.defaults.map fun x => (x.1.map ρ.cur, x.2) }

/-- A cost which was booked. -/
def Relabel.cost (c : Booked.Cost) : Booked.Cost := { c with cur := ρ.cur c.cur, date := ρ.date c.date }

/-- A price which was booked. -/
def Relabel.price (p : Booked.Price) : Booked.Price := { p with cur := ρ.cur p.cur }

/-- A posting which was booked. -/
def Relabel.bookedPosting (p : Booked.Posting) : Booked.Posting :=
  { p with cur := ρ.cur p.cur, cost := p.cost.map ρ.cost, price := p.price.map ρ.price }

/-- A directive which was booked. -/
def Relabel.booked (d : Booked.Directive) : Booked.Directive :=
  { d with
    date := ρ.date d.date
    variant := match d.variant with
      | .transaction t => .transaction { t with postings := t.postings.map ρ.bookedPosting }
      | .balance b => .balance { b with raw := { b.raw with cur := ρ.cur b.raw.cur } }
      | .opn o => .opn (ρ.opening o)
      | .price p => .price { cur := ρ.cur p.cur, price := { p.price with cur := ρ.cur p.price.cur } }
      | .commodity c => .commodity { cur := ρ.cur c.cur }
      | .close c => .close c
      | .pad p => .pad p
      | .document x => .document x
      | .note x => .note x
      | .event e => .event e
      | .query q => .query q
      | .custom c => .custom c }

/-- A lot. -/
def Relabel.lot (l : LotCost) : LotCost := { l with cur := ρ.cur l.cur, date := ρ.date l.date }

/-- What the library makes of a posting. -/
def Relabel.interpolated (i : Interpolated) : Interpolated :=
  { i with currency := ρ.cur i.currency, cost := i.cost.map fun l => l.map ρ.lot, price := i.price.map ρ.price }

/-- The library refuses both, for the transaction or for the same posting; or it makes the same of both, and the new holdings correspond. -/
def RelabelledBookings {Pos : Type} (R : Pos → Pos → Prop) : Except BookError (Bookings Pos) → Except BookError (Bookings Pos) → Prop
  | .error e, .error e' => BookError.Alike e e'
  | .ok r, .ok r' => r'.interpolated = r.interpolated.map ρ.interpolated ∧
      ∃ l, r'.updated.Perm l ∧ List.Forall₂ (fun u v => v.1 = u.1 ∧ R u.2 v.2) r.updated l
  | _, _ => False

/-- The labels mean nothing to the booking library, where `R` says which holdings correspond: corresponding holdings are of as many units
of each currency, and remain so; and given corresponding holdings, what it makes of a transaction corresponds. -/
structure Relabels (L : BookLib) (R : L.Pos → L.Pos → Prop) : Prop where
  empty : R L.empty L.empty
  units : ∀ p p' c, R p p' → L.units p' (ρ.cur c) = L.units p c
  accumulate : ∀ p p' u c b, R p p' → R (L.accumulate p u c b) (L.accumulate p' u (ρ.cur c) b)
  book : ∀ date ps tol inv inv' method, (∀ a, Option.Rel R (inv a) (inv' a)) →
    RelabelledBookings ρ R (L.book date ps tol inv method) (L.book (ρ.date date) (ps.map ρ.posting) (ρ.tolerance tol) inv' method)

/-- Faults: an assertion is off by so much of the currency under its other name. -/
inductive RelabelledFault : Fault → Fault → Prop
  | same (x) : (∀ u c, x ≠ .gap u c) → RelabelledFault x x
  | refused {e e'} : BookError.Alike e e' → RelabelledFault (.refused e) (.refused e')
  | gap (units cur) : RelabelledFault (.gap units cur) (.gap units (ρ.cur cur))

/-- Findings at the same place. -/
structure RelabelledFinding (x y : Finding) : Prop where
  directive : x.directive = y.directive
  posting : x.posting = y.posting
  fault : RelabelledFault ρ x.fault y.fault

/-- Reasons: the text of the library and the accumulated total may differ. -/
inductive RelabelledReason : Reason → Reason → Prop
  | same (x) : (∀ t u c, x ≠ .accumulated t u c) → RelabelledReason x x
  | library (text text') : RelabelledReason (.library text) (.library text')
  | libraryPosting (i text text') : RelabelledReason (.libraryPosting text i) (.libraryPosting text' i)
  | accumulated (total total' units cur) : RelabelledReason (.accumulated total units cur) (.accumulated total' units (ρ.cur cur))

/-- Reports at the same place, referring to the same directives, for the same reason. -/
structure RelabelledReport (x y : IndexedReport) : Prop where
  place : x.idx = y.idx
  related : x.related = y.related
  reason : RelabelledReason ρ x.reason y.reason

end Spec
end Limabean
