/-
Ledgers with other names for the accounts.
-/
import Verif.Spec.Swap
import Verif.Spec.Parts

namespace Limabean
namespace Spec

variable (f : Str → Str)

/-- A posting to the account under its other name. -/
def renamedPosting (p : Raw.PostingSpec) : Raw.PostingSpec := { p with acc := f p.acc }

/-- A directive with the accounts under their other names: wherever a directive names an account by its syntax. Metadata
and the values of custom directives are left alone. -/
def renamedDirective (d : Raw.Directive) : Raw.Directive :=
  { d with variant :=
      match d.variant with
      | .transaction t => .transaction { t with postings := t.postings.map (renamedPosting f) }
      | .balance b => .balance { b with acc := f b.acc }
      | .opn o => .opn { o with acc := f o.acc }
      | .close c => .close { c with acc := f c.acc }
      | .pad p => .pad { p with acc := f p.acc, source := f p.source }
      | .document x => .document { x with acc := f x.acc }
      | .note x => .note { x with acc := f x.acc }
      | .price p => .price p
      | .commodity c => .commodity c
      | .event e => .event e
      | .query q => .query q
      | .custom c => .custom c }

/-- A booked posting under the other name. -/
def renamedBookedPosting (p : Booked.Posting) : Booked.Posting := { p with acc := f p.acc }

/-- A booked directive with the accounts under their other names. -/
def renamedBooked (d : Booked.Directive) : Booked.Directive :=
  { d with variant :=
      match d.variant with
      | .transaction t => .transaction { t with postings := t.postings.map (renamedBookedPosting f) }
      | .balance b => .balance { b with raw := { b.raw with acc := f b.raw.acc } }
      | .opn o => .opn { o with acc := f o.acc }
      | .close c => .close { c with acc := f c.acc }
      | .pad p => .pad { p with acc := f p.acc, source := f p.source }
      | .document x => .document { x with acc := f x.acc }
      | .note x => .note { x with acc := f x.acc }
      | .price p => .price p
      | .commodity c => .commodity c
      | .event e => .event e
      | .query q => .query q
      | .custom c => .custom c }

/-- The other names respect which account is below which, among the accounts used in a ledger. -/
def KeepsBelow (ds : List Raw.Directive) : Prop :=
  ∀ d ∈ ds, ∀ a ∈ accountsOf d, ∀ e ∈ ds, ∀ b ∈ accountsOf e, Below (f a) (f b) ↔ Below a b

/-- Refusals which differ at most in their text. -/
inductive BookError.Alike : BookError → BookError → Prop
  | transaction (text text') : Alike (.transaction text) (.transaction text')
  | posting (i text text') : Alike (.posting i text) (.posting i text')

/-- Faults which differ at most in the text of the library. -/
inductive Fault.Alike : Fault → Fault → Prop
  | same (x) : Alike x x
  | refused {e e'} : BookError.Alike e e' → Alike (.refused e) (.refused e')

/-- Findings at the same place which differ at most in the text of the library. -/
structure Finding.Alike (x y : Finding) : Prop where
  directive : x.directive = y.directive
  posting : x.posting = y.posting
  fault : Fault.Alike x.fault y.fault

/-- Both refused, for the transaction or for the same posting; or the same amounts, and the same holdings under the other
names. -/
def AlikeBookings {Pos : Type} : Except BookError (Bookings Pos) → Except BookError (Bookings Pos) → Prop
  | .error e, .error e' => BookError.Alike e e'
  | .ok r, .ok r' => r'.interpolated = r.interpolated ∧ r'.updated.Perm (r.updated.map fun u => (f u.1, u.2))
  | _, _ => False

/-- The names of accounts mean nothing to the booking library: given what the accounts of a transaction hold and their
methods under other names, different for different accounts, it refuses when it does otherwise, for the transaction or for
the same posting, or else it returns the same amounts, and the same holdings under the other names. -/
def NameBlind (L : BookLib) : Prop :=
  ∀ (f : Str → Str) date ps tol inv inv' method method',
    (∀ p ∈ ps, ∀ q ∈ ps, f p.acc = f q.acc → p.acc = q.acc) →
    (∀ p ∈ ps, inv' (f p.acc) = inv p.acc ∧ method' (f p.acc) = method p.acc) →
    AlikeBookings f (L.book date ps tol inv method) (L.book date (ps.map (renamedPosting f)) tol inv' method')

/-- Reasons which differ at most in the text of the library and in the accumulated total. -/
inductive Reason.Alike : Reason → Reason → Prop
  | same (x) : Alike x x
  | library (text text') : Alike (.library text) (.library text')
  | libraryPosting (i text text') : Alike (.libraryPosting text i) (.libraryPosting text' i)
  | accumulated (total total' units cur) : Alike (.accumulated total units cur) (.accumulated total' units cur)

/-- Reports at the same place, referring to the same directives, for the same reason. -/
structure AlikeReports (x y : IndexedReport) : Prop where
  place : x.idx = y.idx
  related : x.related = y.related
  reason : Reason.Alike x.reason y.reason

/-- An account name with other words for its components. -/
def wordwise (g : Str → Str) (a : Str) : Str := [':'].intercalate ((components a).map g)

end Spec
end Limabean
