/-
A reference semantics of what booking returns for a ledger without fault: directive by directive, by the tally of
`Spec.Faults`. No positions in the output, no indexes, no hash maps; nothing is changed after it is written.
-/
import Verif.Spec.Faults

namespace Limabean
namespace Spec

variable {L : BookLib}

/-- The postings returned for posting number `i`: one for each lot which the library names, else one. -/
def lotPostings (i : Nat) (ip : Interpolated) (p : Raw.PostingSpec) : List Booked.Posting :=
  let one (units : Dec) (cost : Option Booked.Cost) (price : Option Booked.Price) : Booked.Posting :=
    { idx := some i, flag := p.flag, acc := p.acc, units := units, cur := ip.currency, cost := cost, price := price,
      tags := p.tags, links := p.links, metadata := p.metadata }
  match ip.cost with
  | none => [one ip.units none ip.price]
  | some lots => lots.map fun l => one l.units
      (some { date := l.date, perUnit := l.perUnit, total := l.total, cur := l.cur, label := l.label, merge := l.merge })
      none

/-- The postings returned for those of a transaction. -/
def postingsFor (zs : List (Interpolated × Raw.PostingSpec)) : List Booked.Posting :=
  zs.zipIdx.flatMap fun z => lotPostings z.2 z.1.1 z.1.2

/-- The variants returned for a directive: two for a pad, one for any other. The transaction of a pad is empty until it
is filled. -/
def Tally.variants (option : Option Booking) (tol : Tolerance) (s : Tally L) (d : Raw.Directive) : List Booked.Variant :=
  match d.variant with
  | .transaction t =>
    match L.book d.date t.postings tol s.held (s.method option) with
    | .ok r => [.transaction
        { flag := t.flag, payee := t.payee, narration := t.narration
          postings := postingsFor (r.interpolated.zip t.postings) }]
    | .error _ => []
  | .pad p => [.pad p, .transaction { flag := str% "'P", postings := [] }]
  | .balance b => [.balance { raw := b }]
  | .opn o => [.opn o]
  | .close c => [.close c]
  | .price p => [.price p]
  | .commodity c => [.commodity c]
  | .document x => [.document x]
  | .note x => [.note x]
  | .event x => [.event x]
  | .query x => [.query x]
  | .custom x => [.custom x]

/-- The directives returned for directive number `n`: with its number, date, tags, links and metadata. -/
def Tally.emits (option : Option Booking) (tol : Tolerance) (s : Tally L) (n : Nat) (d : Raw.Directive) :
    List Booked.Directive :=
  (s.variants option tol d).map fun v =>
    { idx := n, date := d.date, tags := d.tags, links := d.links, metadata := d.metadata, variant := v }

/-- The pad which an assertion fills, and the postings of its transaction: what is missing, to the account and from the
source. -/
def Tally.fills (tol : Tolerance) (s : Tally L) (d : Raw.Directive) : Option (Nat × List Booked.Posting) :=
  match d.variant with
  | .balance b =>
    let gap := b.units.sub (s.total b.acc b.cur)
    match gap.abs.gt (toleranceDec tol.multiplier b), s.pending b.acc with
    | true, some (k, src) =>
      some (k, [{ flag := some (str% "'P"), acc := b.acc, units := gap, cur := b.cur },
                { flag := some (str% "'P"), acc := src, units := gap.neg, cur := b.cur }])
    | _, _ => none
  | _ => none

/-- What is said of an account opened with a booking method which is not supported. -/
def warns (L : BookLib) (n : Nat) (d : Raw.Directive) : List IndexedReport :=
  match d.variant with
  | .opn o =>
    match o.booking with
    | some b =>
      if L.supported b then []
      else [{ idx := { directive := n }, reason := .bookingUnsupported b L.dflt },
            { idx := { directive := n }, reason := .bookingUnsupportedExplicit }]
    | none => []
  | _ => []

/-- The directives with their numbers and with what is remembered before each of them. -/
def Tally.history (option : Option Booking) (tol : Tolerance) : Nat → Tally L → List Raw.Directive →
    List (Tally L × Nat × Raw.Directive)
  | _, _, [] => []
  | n, s, d :: ds => (s, n, d) ::
    match s.step option tol n d with
    | some (s', _) => Tally.history option tol (n + 1) s' ds
    | none => []

/-- Give the transaction of a pad the postings with which it is filled. -/
def fillIn (fills : List (Nat × List Booked.Posting)) (d : Booked.Directive) : Booked.Directive :=
  match d.variant, fills.find? fun f => f.1 = d.idx with
  | .transaction t, some f => { d with variant := .transaction { t with postings := f.2 } }
  | _, _ => d

/-- What is returned of a history. -/
def returnedOf (option : Option Booking) (tol : Tolerance) (h : List (Tally L × Nat × Raw.Directive)) :
    List Booked.Directive :=
  (h.flatMap fun x => x.1.emits option tol x.2.1 x.2.2).map (fillIn (h.filterMap fun x => x.1.fills tol x.2.2))

/-- The directives returned for a ledger without fault. -/
def returned (L : BookLib) (option : Option Booking) (tol : Tolerance) (ds : List Raw.Directive) :
    List Booked.Directive :=
  returnedOf option tol (Tally.history option tol 0 (Tally.init L) ds)

/-- The warnings for a ledger without fault. -/
def warned (L : BookLib) (ds : List Raw.Directive) : List IndexedReport :=
  ds.zipIdx.flatMap fun d => warns L d.2 d.1

end Spec
end Limabean
