/-
The postings of a ledger as reports see them, and which of them a list of filters selects.
-/
import Verif.Clj.Filters

namespace Limabean
namespace Spec

open Clj

/-- A posting with the date, the payee and the narration of its transaction. -/
structure Posted where
  date : Date
  payee : Option Str
  narration : Option Str
  posting : Booked.Posting

/-- The postings of a ledger, in order. -/
def allPosted (ds : List Booked.Directive) : List Posted :=
  ds.flatMap fun d => match d.variant with
    | .transaction t => t.postings.map fun p => ⟨d.date, t.payee, t.narration, p⟩
    | _ => []

/-- What filters see of a posting. -/
def Posted.seen (x : Posted) : Fields :=
  { date := some x.date
    acc := some x.posting.acc
    cur := some x.posting.cur
    payee := x.payee
    narration := x.narration }

/-- All filters accept the posting. -/
def Selected (fs : List Filter) (x : Posted) : Prop := ∀ f ∈ fs, f x.seen = true

instance (fs : List Filter) (x : Posted) : Decidable (Selected fs x) := inferInstanceAs (Decidable (∀ f ∈ fs, _))

/-- The selected postings, in order. -/
def selection (ds : List Booked.Directive) (fs : List Filter) : List Posted := (allPosted ds).filter fun x => Selected fs x

end Spec
end Limabean
