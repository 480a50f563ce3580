/-
Transactions which are written in full, and what they move.
-/
import Verif.Spec.Continued
import Verif.Spec.Output

namespace Limabean
namespace Spec

/-- The postings are written in full: each has an amount, and no cost or price. -/
def InFull (ps : List Raw.PostingSpec) : Prop :=
  ∀ p ∈ ps, (∃ u, p.units = some u) ∧ (∃ c, p.cur = some c) ∧ p.costSpec = none ∧ p.priceSpec = none

/-- The units of a currency in postings written in full. -/
def writtenUnits (cur : Str) (ps : List Raw.PostingSpec) : ℚ :=
  ((ps.filter fun p => decide (p.cur = some cur)).map fun p => (p.units.getD Dec.zero).val).sum

/-- The postings of a directive, if it is a transaction. -/
def postingSpecs (d : Raw.Directive) : List Raw.PostingSpec :=
  match d.variant with
  | .transaction t => t.postings
  | _ => []

/-- What directives move to an account. -/
def moved (ds : List Raw.Directive) (acc cur : Str) : ℚ :=
  writtenUnits cur ((ds.flatMap postingSpecs).filter fun p => decide (p.acc = acc))

/-- A transaction written in full which fits a ledger: its amounts add up to nothing, and its accounts are open and take the currency. -/
structure FullTransaction (ledger : List Raw.Directive) (d : Raw.Directive) : Prop where
  transaction : ∃ t, d.variant = .transaction t
  full : InFull (postingSpecs d)
  balances : ∀ cur, writtenUnits cur (postingSpecs d) = 0
  fits : ∀ p ∈ postingSpecs d, ∃ o, life ledger p.acc = .opn o ∧
    (o.currencies.getD [] = [] ∨ ∀ c, p.cur = some c → c ∈ o.currencies.getD [])

/-- Such a transaction, as booking returns it. -/
def fullAsWritten (n : Nat) (d : Raw.Directive) : List Booked.Directive :=
  match d.variant with
  | .transaction t =>
    [{ idx := n, date := d.date, tags := d.tags, links := d.links, metadata := d.metadata
       variant := .transaction
        { flag := t.flag, payee := t.payee, narration := t.narration
          postings := t.postings.zipIdx.map fun p =>
            { idx := some p.2, flag := p.1.flag, acc := p.1.acc, units := p.1.units.getD Dec.zero, cur := p.1.cur.getD []
              tags := p.1.tags, links := p.1.links, metadata := p.1.metadata } } }]
  | _ => []

/-- Several of them, the first with number `n`. -/
def allAsWritten (n : Nat) (ds : List Raw.Directive) : List Booked.Directive := (ds.zipIdx n).flatMap fun d => fullAsWritten d.2 d.1

/-- Holdings with some amounts added. -/
def added {L : BookLib} (p : L.Pos) (l : List (Dec × Str)) : L.Pos := l.foldl (fun p x => L.accumulate p x.1 x.2 L.dflt) p

/-- The amounts of postings on an account. -/
def amountsOn (acc : Str) (ps : List Raw.PostingSpec) : List (Dec × Str) :=
  (ps.filter fun p => decide (p.acc = acc)).map fun p => (p.units.getD Dec.zero, p.cur.getD [])

/-- The total of a currency. -/
def totalIn (cur : Str) (l : List (Dec × Str)) : ℚ := ((l.filter fun x => decide (x.2 = cur)).map fun x => x.1.val).sum

/-- A transaction which is written in full and balances is booked as it is, by adding its amounts to what the accounts hold; and what is
added in all counts, not how. This is up to holdings which are alike to the library. -/
structure BooksInFull (L : BookLib) (tol : Tolerance) (alike : L.Pos → L.Pos → Prop) : Prop where
  equivalence : Equivalence alike
  totals : ∀ p l l', (∀ cur, totalIn cur l = totalIn cur l') → alike (added p l) (added p l')
  book : ∀ date ps held method, InFull ps → (∀ cur, writtenUnits cur ps = 0) → (∀ p ∈ ps, ∃ q, held p.acc = some q) →
    ∃ r, L.book date ps tol held method = .ok r ∧
      r.interpolated = ps.map (fun p => { units := p.units.getD Dec.zero, currency := p.cur.getD [] }) ∧
      ∀ a p, held a = some p → ∃ q, heldAfter held r.updated a = some q ∧ alike (added p (amountsOn a ps)) q

end Spec
end Limabean
