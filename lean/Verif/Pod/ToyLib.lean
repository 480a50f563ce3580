/-
A small concrete booking library: it shows that the contract `BookLib.Lawful` can be met, and runs the examples.
It is not a model of `limabean_booking`.

Postings need units and currency, except that at most one posting may omit them and is then interpolated from the others
in the currency of the first posting. A posting with an empty cost specification `{}` is matched against two lots,
one unit at cost 10 and the rest at cost 11, to exercise multi-lot reductions.
-/
import Verif.Pod.Accumulator

namespace Limabean
namespace Toy

/-- Holdings: units by currency. -/
abbrev Pos := AMap Str Dec

/-- Units of a currency. -/
def units (p : Pos) (c : Str) : Dec := (p.get c).getD Dec.zero

/-- Add units of a currency. -/
def accumulate (p : Pos) (u : Dec) (c : Str) (_ : Booking) : Pos := p.set c ((units p c).add u)

/-- The lots of a posting with a cost. -/
def lots (date : Date) (u : Dec) (cs : Raw.CostSpec) : List LotCost :=
  match cs.perUnit, cs.cur with
  | some pu, some c => [{ cur := c, units := u, date := cs.date.getD date, perUnit := pu, total := u.mul pu, label := cs.label }]
  | _, _ =>
    let rest := u.sub ⟨1, 0⟩
    [ { cur := str% "NZD", units := ⟨1, 0⟩, date := date, perUnit := ⟨10, 0⟩, total := ⟨10, 0⟩ },
      { cur := str% "NZD", units := rest, date := date, perUnit := ⟨11, 0⟩, total := rest.mul ⟨11, 0⟩ } ]

/-- Interpolate one posting, given the residual for a missing amount. -/
def interpolate (date : Date) (residual : Dec × Str) (p : Raw.PostingSpec) : Interpolated :=
  let u := p.units.getD residual.1
  { units := u
    currency := p.cur.getD residual.2
    cost := p.costSpec.map (lots date u)
    price := p.priceSpec.bind fun ps => match ps.perUnit, ps.cur with
      | some pu, some c => some { perUnit := pu, cur := c }
      | _, _ => none }

/-- What the complete postings leave open. -/
def residual (ps : List Raw.PostingSpec) : Dec × Str :=
  ((Dec.sum (ps.filterMap fun p => p.units)).neg, (ps.filterMap fun p => p.cur).headD [])

/-- The units an interpolated posting adds. -/
def addPosting (b : Booking) (p : Pos) (i : Interpolated) : Pos :=
  match i.cost with
  | some ls => ls.foldl (fun p l => accumulate p l.units i.currency b) p
  | none => accumulate p i.units i.currency b

/-- Apply the postings of one account. -/
def applyAll (b : Booking) (acc : Str) : Pos → List Raw.PostingSpec → List Interpolated → Pos
  | pos, p :: ps, i :: is => applyAll b acc (if p.acc = acc then addPosting b pos i else pos) ps is
  | pos, _, _ => pos

/-- Does every posting have units, but for at most one? -/
def complete (ps : List Raw.PostingSpec) : Bool := decide ((ps.filter fun p => p.units.isNone).length ≤ 1)

/-- Booking. -/
def bookAll (date : Date) (ps : List Raw.PostingSpec) (_ : Tolerance) (inv : Str → Option Pos) (bk : Str → Booking) :
    Except BookError (Bookings Pos) :=
  if complete ps then
    let is := ps.map (interpolate date (residual ps))
    .ok { interpolated := is
          updated := (ps.map fun p => p.acc).dedup.map fun a =>
            (a, applyAll (bk a) a ((inv a).getD []) ps is) }
  else .error (.transaction (str% "incomplete"))

/-- The toy library. -/
def lib : BookLib where
  Pos := Pos
  empty := []
  units := units
  accumulate := accumulate
  book := bookAll
  supported := fun b => b != .average
  dflt := .strict

theorem val_accumulate (p : Pos) (u : Dec) (c : Str) (b : Booking) (c' : Str) :
    (units (accumulate p u c b) c').val = (units p c').val + if c' = c then u.val else 0 := by
  unfold accumulate units
  rw [AMap.get_set]
  by_cases h : c = c'
  · subst h; simp
  · have h' : ¬ c' = c := fun e => h e.symm
    simp [h, h']

theorem val_addPosting (b : Booking) (p : Pos) (i : Interpolated) (c : Str) :
    (units (addPosting b p i) c).val = (units p c).val + if i.currency = c then i.lotUnits else 0 := by
  unfold addPosting Interpolated.lotUnits
  cases i.cost with
  | none => simp only [val_accumulate, eq_comm (a := c)]
  | some ls =>
    simp only
    induction ls generalizing p with
    | nil => simp
    | cons l ls ih =>
      simp only [List.foldl_cons, ih, val_accumulate, List.map_cons, List.sum_cons]
      by_cases h : i.currency = c
      · subst h; simp; ring
      · have h' : ¬ c = i.currency := fun e => h e.symm
        simp [h, h']

theorem val_applyAll (b : Booking) (acc : Str) (ps : List Raw.PostingSpec) (is : List Interpolated) (pos : Pos) (c : Str) :
    (units (applyAll b acc pos ps is) c).val = (units pos c).val + postingsChange acc c ps is := by
  induction ps generalizing is pos with
  | nil => simp [applyAll, postingsChange]
  | cons p ps ih =>
    cases is with
    | nil => simp [applyAll, postingsChange]
    | cons i is =>
      simp only [applyAll, postingsChange, ih]
      by_cases h : p.acc = acc
      · simp only [h, if_true, val_addPosting, true_and]; ring
      · simp [h]

theorem postingsChange_other (acc c : Str) (ps : List Raw.PostingSpec) (is : List Interpolated)
    (h : ∀ p ∈ ps, p.acc ≠ acc) : postingsChange acc c ps is = 0 := by
  induction ps generalizing is with
  | nil => simp [postingsChange]
  | cons p ps ih =>
    cases is with
    | nil => simp [postingsChange]
    | cons i is =>
      have h1 := h p (by simp)
      have h2 := ih is (fun q hq => h q (List.mem_cons_of_mem _ hq))
      simp [postingsChange, h1, h2]

theorem bookAll_ok {d : Date} {ps : List Raw.PostingSpec} {t : Tolerance} {inv : Str → Option Pos} {bk : Str → Booking}
    {r : Bookings Pos} (h : bookAll d ps t inv bk = .ok r) :
    r = { interpolated := ps.map (interpolate d (residual ps))
          updated := (ps.map fun p => p.acc).dedup.map fun a =>
            (a, applyAll (bk a) a ((inv a).getD []) ps (ps.map (interpolate d (residual ps)))) } := by
  unfold bookAll at h
  split at h
  · cases h; rfl
  · cases h

theorem mem_updated {d : Date} {ps : List Raw.PostingSpec} {t : Tolerance} {inv : Str → Option Pos} {bk : Str → Booking}
    {r : Bookings Pos} (h : bookAll d ps t inv bk = .ok r) (a : Str) (q : Pos) :
    (a, q) ∈ r.updated ↔ (∃ p ∈ ps, p.acc = a) ∧
      q = applyAll (bk a) a ((inv a).getD []) ps (ps.map (interpolate d (residual ps))) := by
  rw [bookAll_ok h]
  simp only [List.mem_map, List.mem_dedup, Prod.mk.injEq]
  constructor
  · rintro ⟨a', ⟨p, hp, hpa⟩, e, rfl⟩
    subst e
    exact ⟨⟨p, hp, hpa⟩, rfl⟩
  · rintro ⟨⟨p, hp, hpa⟩, rfl⟩
    exact ⟨a, ⟨p, hp, hpa⟩, rfl, rfl⟩

theorem nodup_updated {d : Date} {ps : List Raw.PostingSpec} {t : Tolerance} {inv : Str → Option Pos} {bk : Str → Booking}
    {r : Bookings Pos} (h : bookAll d ps t inv bk = .ok r) : (r.updated.map Prod.fst).Nodup := by
  rw [bookAll_ok h]
  simp only [List.map_map]
  have : (Prod.fst ∘ fun a => (a, applyAll (bk a) a ((inv a).getD []) ps
      (List.map (interpolate d (residual ps)) ps))) = id := rfl
  rw [this, List.map_id]
  exact List.nodup_dedup _

theorem lots_sum {d : Date} {ps : List Raw.PostingSpec} {t : Tolerance} {inv : Str → Option Pos} {bk : Str → Booking}
    {r : Bookings Pos} (h : bookAll d ps t inv bk = .ok r) :
    ∀ i ∈ r.interpolated, ∀ ls, i.cost = some ls → (ls.map fun l => l.units.val).sum = i.units.val := by
  rw [bookAll_ok h]
  intro i hi ls hls
  simp only [List.mem_map] at hi
  obtain ⟨p, _, rfl⟩ := hi
  simp only [interpolate, Option.map_eq_some_iff] at hls ⊢
  obtain ⟨cs, _, rfl⟩ := hls
  unfold lots
  split
  · simp
  · have h1 : (Dec.mk 1 0).val = 1 := by norm_num [Dec.val]
    simp [h1]

/-- The toy library meets the contract. -/
theorem lib_lawful : lib.Lawful where
  units_empty := by intro c; simp [lib, units]
  units_accumulate := val_accumulate
  book_length := by
    intro d ps t inv bk r h
    have h : bookAll d ps t inv bk = .ok r := h
    rw [bookAll_ok h]
    simp
  book_accounts := fun _ _ t _ _ _ h a q hq => ((mem_updated (t := t) h a q).1 hq).1
  book_nodup := fun _ _ t _ _ _ h => nodup_updated (t := t) h
  book_updated := by
    intro d ps t inv bk r h a q hq c
    have h : bookAll d ps t inv bk = .ok r := h
    rw [((mem_updated h a q).1 hq).2, bookAll_ok h]
    exact val_applyAll _ _ _ _ _ _
  book_not_updated := by
    intro d ps t inv bk r h a ha c
    apply postingsChange_other
    intro p hp hpa
    have h : bookAll d ps t inv bk = .ok r := h
    exact ha (applyAll (bk a) a ((inv a).getD []) ps (ps.map (interpolate d (residual ps))))
      ((mem_updated h a _).2 ⟨⟨p, hp, hpa⟩, rfl⟩)
  book_lots := fun _ _ t _ _ _ h => lots_sum (t := t) h
  supported_dflt := by decide

/-- Run the toy library with a given iteration order. -/
def run (ds : List Raw.Directive) (o : BookOptions := {})
    (order : AMap Str (Account lib) → AMap Str (Account lib) := id) : Outcome := Limabean.book lib order o ds

/-- A date, for examples. -/
def day (d : Nat) : Date := ⟨2010, 1, d⟩

/-- Directives, for examples. -/
def mkOpen (d : Nat) (a : Str) (curs : Option (List Str) := none) (bk : Option Booking := none) : Raw.Directive :=
  { date := day d, variant := .opn { acc := a, currencies := curs, booking := bk } }
def mkClose (d : Nat) (a : Str) : Raw.Directive := { date := day d, variant := .close { acc := a } }
def mkPad (d : Nat) (a s : Str) : Raw.Directive := { date := day d, variant := .pad { acc := a, source := s } }
def mkBal (d : Nat) (a : Str) (u : Dec) (c : Str) (t : Option Dec := none) : Raw.Directive :=
  { date := day d, variant := .balance { acc := a, units := u, cur := c, tolerance := t } }
def mkTxn (d : Nat) (ps : List (Str × Dec × Str)) : Raw.Directive :=
  { date := day d, variant := .transaction { flag := str% "*", postings := ps.map fun (a, u, c) =>
      { acc := a, units := some u, cur := some c } } }

/-- The postings of an outcome, for examples. -/
def postingsOf : Outcome → List (Nat × Str × Dec × Str)
  | .success ds _ => ds.flatMap fun d => match d.variant with
    | .transaction t => t.postings.map fun p => (d.idx, p.acc, p.units, p.cur)
    | _ => []
  | _ => []

/-- test-cases/pad.beancount and its golden journal. -/
example : postingsOf (run [
    mkOpen 1 (str% "Equity:Opening-Balances"), mkOpen 1 (str% "Assets:Bank"), mkOpen 1 (str% "Expenses:Other"),
    mkPad 2 (str% "Assets:Bank") (str% "Equity:Opening-Balances"),
    mkBal 10 (str% "Assets:Bank") ⟨100, 0⟩ (str% "NZD"),
    mkTxn 11 [(str% "Assets:Bank", ⟨-1000, 2⟩, str% "NZD"), (str% "Expenses:Other", ⟨1000, 2⟩, str% "NZD")],
    mkPad 12 (str% "Assets:Bank") (str% "Equity:Opening-Balances"),
    mkBal 20 (str% "Assets:Bank") ⟨50, 0⟩ (str% "NZD")]) =
  [ (3, str% "Assets:Bank", ⟨100, 0⟩, str% "NZD"), (3, str% "Equity:Opening-Balances", ⟨-100, 0⟩, str% "NZD"),
    (5, str% "Assets:Bank", ⟨-1000, 2⟩, str% "NZD"), (5, str% "Expenses:Other", ⟨1000, 2⟩, str% "NZD"),
    (6, str% "Assets:Bank", ⟨-4000, 2⟩, str% "NZD"), (6, str% "Equity:Opening-Balances", ⟨4000, 2⟩, str% "NZD")] := by
  decide +kernel

/-- rust/src/api/booking/tests.rs:21-36: within the inferred tolerance. -/
example : (match run [mkOpen 1 (str% "Assets:Bank"), mkOpen 1 (str% "Equity:Opening"),
    mkTxn 1 [(str% "Assets:Bank", ⟨10001, 2⟩, str% "USD"), (str% "Equity:Opening", ⟨-10001, 2⟩, str% "USD")],
    mkBal 2 (str% "Assets:Bank") ⟨10000, 2⟩ (str% "USD")] with
    | .success .. => true | _ => false) = true := by decide +kernel

/-- rust/src/api/booking/tests.rs:39-53: beyond the inferred tolerance. -/
example : (match run [mkOpen 1 (str% "Assets:Bank"), mkOpen 1 (str% "Equity:Opening"),
    mkTxn 1 [(str% "Assets:Bank", ⟨10002, 2⟩, str% "USD"), (str% "Equity:Opening", ⟨-10002, 2⟩, str% "USD")],
    mkBal 2 (str% "Assets:Bank") ⟨10000, 2⟩ (str% "USD")] with
    | .failure .. => true | _ => false) = true := by decide +kernel

end Toy
end Limabean
