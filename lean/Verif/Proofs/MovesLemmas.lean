/-
Transactions written in full are accepted and returned as they are.
-/
import Verif.Spec.Moves
import Verif.Proofs.OpeningLemmas

namespace Limabean

open Spec

variable {L : BookLib}

theorem wrongPosting_usable {s : Tally L} (zs : List (Interpolated × Raw.PostingSpec)) (i : Nat)
    (h : ∀ z ∈ zs, s.usage z.2.acc z.1.currency = none) : s.wrongPosting i zs = none := by
  induction zs generalizing i with
  | nil => rfl
  | cons z zs ih =>
    obtain ⟨ip, p⟩ := z
    simp only [Tally.wrongPosting, h (ip, p) (by simp)]
    exact ih _ fun z hz => h z (List.mem_cons_of_mem _ hz)

theorem heldAfter_other {held : Str → Option L.Pos} {us : List (Str × L.Pos)} {a : Str} (h : ∀ q, (a, q) ∉ us) : heldAfter held us a = held a := by
  unfold heldAfter
  induction us generalizing held with
  | nil => rfl
  | cons u us ih =>
    rw [List.foldl_cons, ih fun q hq => h q (List.mem_cons_of_mem _ hq), Function.update_of_ne]
    rintro rfl
    exact h u.2 (by simp)

theorem zip_as_written (ps : List Raw.PostingSpec) (i : Nat) (h : InFull ps) :
    ((((ps.map fun p => ({ units := p.units.getD Dec.zero, currency := p.cur.getD [] } : Interpolated)).zip ps).zipIdx i).flatMap
      fun z => lotPostings z.2 z.1.1 z.1.2) = (ps.zipIdx i).map fun p =>
        { idx := some p.2, flag := p.1.flag, acc := p.1.acc, units := p.1.units.getD Dec.zero, cur := p.1.cur.getD []
          tags := p.1.tags, links := p.1.links, metadata := p.1.metadata } := by
  induction ps generalizing i with
  | nil => rfl
  | cons p ps ih =>
    simp only [List.map_cons, List.zip_cons_cons, List.zipIdx_cons, List.flatMap_cons]
    rw [ih _ fun q hq => h q (List.mem_cons_of_mem _ hq)]
    rfl

/-- A full transaction touches no account. -/
theorem Spec.FullTransaction.touches {pre : List Raw.Directive} {d : Raw.Directive} (h : FullTransaction pre d) (a : Str) : touches a d = false := by
  obtain ⟨t, ht⟩ := h.transaction
  simp [Limabean.touches, ht]

theorem Spec.FullTransaction.more {pre : List Raw.Directive} {d e : Raw.Directive} (h : FullTransaction pre d) (he : FullTransaction pre e) :
    FullTransaction (pre ++ [d]) e := by
  refine ⟨he.transaction, he.full, he.balances, fun p hp => ?_⟩
  rw [life_snoc, next_untouched (h.touches _)]
  exact he.fits p hp

theorem Spec.FullTransaction.step (hL : L.Lawful) {alike : L.Pos → L.Pos → Prop} {option : Option Booking} {tol : Tolerance}
    (hb : BooksInFull L tol alike) {pre : List Raw.Directive} {s : Tally L} {d : Raw.Directive} (h : Led pre s) (hpend : ∀ a, s.pending a = none)
    (hf : FullTransaction pre d) :
    ∃ s', s.step option tol pre.length d = some (s', []) ∧ (∀ a, s'.pending a = none) ∧ s.fills tol d = none ∧
      s.emits option tol pre.length d = fullAsWritten pre.length d ∧
      (∀ a p, s.held a = some p → ∃ q, s'.held a = some q ∧ alike (added p (amountsOn a (postingSpecs d))) q) ∧
      ∀ a, s.held a = none → s'.held a = none := by
  obtain ⟨t, hv⟩ := hf.transaction
  have hps : postingSpecs d = t.postings := by simp [postingSpecs, hv]
  have hfull := hf.full
  have hbal := hf.balances
  have hfit := hf.fits
  rw [hps] at hfull hbal hfit ⊢
  have husage : ∀ p ∈ t.postings, s.usage p.acc (p.cur.getD []) = none ∧ ∃ q, s.held p.acc = some q := by
    intro p hp
    obtain ⟨o, ho, hc⟩ := hfit p hp
    obtain ⟨-, ⟨c, hcur⟩, -⟩ := hfull p hp
    have := usage_open (c := p.cur.getD []) h ho (hc.imp id fun k => by simpa [hcur] using k c hcur)
    exact ⟨this.1, Option.isSome_iff_exists.1 this.2⟩
  obtain ⟨r, hr, hi, hh⟩ := hb.book d.date t.postings s.held (s.method option) hfull hbal fun p hp => (husage p hp).2
  have hw : s.wrongPosting 0 (r.interpolated.zip t.postings) = none := by
    refine wrongPosting_usable _ _ fun z hz => ?_
    rw [hi] at hz
    have : ∀ ps : List Raw.PostingSpec, z ∈ (ps.map fun p => ({ units := p.units.getD Dec.zero, currency := p.cur.getD [] } : Interpolated)).zip ps →
        ∃ p ∈ ps, z.2 = p ∧ z.1.currency = p.cur.getD [] := by
      intro ps
      induction ps with
      | nil => simp
      | cons p ps ih =>
        intro hz
        simp only [List.map_cons, List.zip_cons_cons, List.mem_cons] at hz
        rcases hz with rfl | hz
        · exact ⟨p, by simp, rfl, rfl⟩
        · obtain ⟨q, hq, e⟩ := ih hz
          exact ⟨q, List.mem_cons_of_mem _ hq, e⟩
    obtain ⟨p, hp, e1, e2⟩ := this _ hz
    rw [e1, e2]
    exact (husage p hp).1
  refine ⟨{ s with held := heldAfter s.held r.updated }, ?_, hpend, by simp [Tally.fills, hv], ?_, fun a p hp => hh a p hp, fun a ha => ?_⟩
  · simp only [Tally.step, hv, hr, hw]
    rfl
  · simp only [Tally.emits, Tally.variants, hv, hr, fullAsWritten, List.map_cons, List.map_nil, postingsFor, hi]
    rw [zip_as_written _ _ hfull]
  · show heldAfter s.held r.updated a = none
    rw [heldAfter_other, ha]
    intro q hq
    obtain ⟨p, hp, rfl⟩ := hL.book_accounts _ _ _ _ _ _ hr a q hq
    obtain ⟨q', hq'⟩ := (husage p hp).2
    rw [ha] at hq'
    cases hq'

theorem added_append (p : L.Pos) (l m : List (Dec × Str)) : added p (l ++ m) = added (added p l) m := by
  simp [added, List.foldl_append]

theorem added_alike {alike : L.Pos → L.Pos → Prop} (ha : ∀ p q u v cur, alike p q → u.val = v.val → alike (L.accumulate p u cur L.dflt) (L.accumulate q v cur L.dflt))
    {p q : L.Pos} (h : alike p q) (l : List (Dec × Str)) : alike (added p l) (added q l) := by
  induction l generalizing p q with
  | nil => exact h
  | cons x l ih => exact ih (ha _ _ _ _ _ h rfl)

theorem amountsOn_append (a : Str) (ps qs : List Raw.PostingSpec) : amountsOn a (ps ++ qs) = amountsOn a ps ++ amountsOn a qs := by
  simp [amountsOn]

theorem allAsWritten_cons (n : Nat) (d : Raw.Directive) (ds : List Raw.Directive) :
    allAsWritten n (d :: ds) = fullAsWritten n d ++ allAsWritten (n + 1) ds := by
  simp [allAsWritten, List.zipIdx_cons]

theorem Spec.FullTransaction.run (hL : L.Lawful) {alike : L.Pos → L.Pos → Prop} {option : Option Booking} {tol : Tolerance}
    (hb : BooksInFull L tol alike) (ts : List Raw.Directive) {pre : List Raw.Directive} {s : Tally L} (h : Led pre s)
    (hpend : ∀ a, s.pending a = none) (hf : ∀ d ∈ ts, FullTransaction pre d) :
    ∃ s', Tally.run option tol pre.length s ts = some (s', []) ∧ (∀ a, s'.pending a = none) ∧
      filled tol (Tally.history option tol pre.length s ts) = [] ∧
      emitted option tol (Tally.history option tol pre.length s ts) = allAsWritten pre.length ts ∧
      ((∀ p q u v cur, alike p q → u.val = v.val → alike (L.accumulate p u cur L.dflt) (L.accumulate q v cur L.dflt)) →
        ∀ a p, s.held a = some p → ∃ q, s'.held a = some q ∧ alike (added p (amountsOn a (ts.flatMap postingSpecs))) q) ∧
      ∀ a, s.held a = none → s'.held a = none := by
  induction ts generalizing pre s with
  | nil => exact ⟨s, rfl, hpend, rfl, rfl, fun _ a p hp => ⟨p, hp, hb.equivalence.refl _⟩, fun _ ha => ha⟩
  | cons d ts ih =>
    have hd := hf d (by simp)
    obtain ⟨s', h1, h2, h3, h4, h5, h6⟩ := hd.step (option := option) hL hb h hpend
    have hlen : (pre ++ [d]).length = pre.length + 1 := by simp
    obtain ⟨s'', g1, g2, g3, g4, g5, g6⟩ := ih (pre := pre ++ [d]) (h.step hL h1) h2 fun e he => hd.more (hf e (List.mem_cons_of_mem _ he))
    rw [hlen] at g1 g3 g4
    refine ⟨s'', ?_, g2, ?_, ?_, fun hacc a p hp => ?_, fun a ha => g6 a (h6 a ha)⟩
    · simp only [Tally.run, h1, g1, List.nil_append]
    · simp only [Tally.history, h1, filled, List.filterMap_cons, h3]
      exact g3
    · rw [allAsWritten_cons, ← g4, ← h4]
      simp only [Tally.history, h1, emitted, List.flatMap_cons]
    · obtain ⟨q, hq, e⟩ := h5 a p hp
      obtain ⟨q', hq', e'⟩ := g5 hacc a q hq
      refine ⟨q', hq', hb.equivalence.trans ?_ e'⟩
      rw [List.flatMap_cons, amountsOn_append, added_append]
      exact added_alike hacc e _

/-! ### Amounts -/

theorem totalIn_cons (c : Str) (x : Dec × Str) (l : List (Dec × Str)) : totalIn c (x :: l) = (if x.2 = c then x.1.val else 0) + totalIn c l := by
  unfold totalIn
  by_cases h : x.2 = c <;> simp [h]

/-- What is moved to an account is the total of the amounts. -/
theorem totalIn_amountsOn {ps : List Raw.PostingSpec} (h : InFull ps) (a c : Str) :
    totalIn c (amountsOn a ps) = writtenUnits c (ps.filter fun p => decide (p.acc = a)) := by
  unfold totalIn amountsOn writtenUnits
  rw [List.filter_map, List.map_map, List.filter_filter, List.filter_filter]
  have : ∀ p ∈ ps, ((decide (p.cur.getD [] = c) && decide (p.acc = a)) = (decide (p.cur = some c) && decide (p.acc = a))) := by
    intro p hp
    obtain ⟨-, ⟨x, hx⟩, -⟩ := h p hp
    simp [hx]
  rw [← List.filter_congr this]
  rfl

theorem postings_written {n : Nat} {d : Raw.Directive} :
    (postings (fullAsWritten n d)).map (fun p => (p.acc, p.units, p.cur)) = (postingSpecs d).map fun p => (p.acc, p.units.getD Dec.zero, p.cur.getD []) := by
  unfold fullAsWritten postingSpecs
  cases hv : d.variant <;> simp [postings, Spec.postingsOf]
  rename_i t
  have : ∀ (ps : List Raw.PostingSpec) (i : Nat), (ps.zipIdx i).map (fun p => (p.1.acc, p.1.units.getD Dec.zero, p.1.cur.getD [])) =
      ps.map fun p => (p.acc, p.units.getD Dec.zero, p.cur.getD []) := by
    intro ps
    induction ps with
    | nil => intro; rfl
    | cons p ps ih => intro i; simp [List.zipIdx_cons, ih]
  exact this _ _

theorem postings_allWritten (n : Nat) (ds : List Raw.Directive) :
    (postings (allAsWritten n ds)).map (fun p => (p.acc, p.units, p.cur)) =
      (ds.flatMap postingSpecs).map fun p => (p.acc, p.units.getD Dec.zero, p.cur.getD []) := by
  induction ds generalizing n with
  | nil => rfl
  | cons d ds ih =>
    have happ : ∀ x y : List Booked.Directive, postings (x ++ y) = postings x ++ postings y := by intro x y; simp [postings]
    rw [allAsWritten_cons, happ, List.map_append, postings_written, ih, List.flatMap_cons, List.map_append]

theorem amountOn_append (S : Str → Bool) (cur : Str) (l m : List (Str × Dec × Str)) : amountOn S cur (l ++ m) = amountOn S cur l + amountOn S cur m := by
  simp [amountOn]

theorem amountOn_alike {l m : List (Str × Dec × Str)} (h : ∀ a c, amountOn (fun b => decide (b = a)) c l = amountOn (fun b => decide (b = a)) c m)
    (S : Str → Bool) (cur : Str) : amountOn S cur l = amountOn S cur m := by
  have h1 := amountOn_accounts S cur l ((l ++ m).map Prod.fst).toFinset (fun x hx => by simp; exact .inl ⟨_, _, hx⟩)
  have h2 := amountOn_accounts S cur m ((l ++ m).map Prod.fst).toFinset (fun x hx => by simp; exact .inr ⟨_, _, hx⟩)
  rw [h1, h2]
  exact Finset.sum_congr rfl fun a _ => h a cur

theorem amountOn_moved {ps : List Raw.PostingSpec} (h : InFull ps) (a c : Str) :
    amountOn (fun b => decide (b = a)) c (ps.map fun p => (p.acc, p.units.getD Dec.zero, p.cur.getD [])) = writtenUnits c (ps.filter fun p => decide (p.acc = a)) := by
  rw [← totalIn_amountsOn h]
  unfold amountOn totalIn amountsOn
  rw [List.filter_map, List.filter_map, List.map_map, List.map_map, List.filter_filter]
  congr 2
  simp [Function.comp_def, Bool.and_comm]

theorem Spec.InFull.all {pre ts : List Raw.Directive} (h : ∀ d ∈ ts, FullTransaction pre d) : InFull (ts.flatMap postingSpecs) := by
  intro p hp
  obtain ⟨d, hd, hpd⟩ := List.mem_flatMap.1 hp
  exact (h d hd).full p hpd

end Limabean
