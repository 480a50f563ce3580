/-
What is remembered of a ledger written in another way.
-/
import Verif.Spec.Rewording
import Verif.Proofs.RelabelLemmas
import Verif.Proofs.UnpaddedLemmas

namespace Limabean

open Spec

variable {L : BookLib} {tol : Tolerance} {alike : L.Pos → L.Pos → Prop}

/-- The same is remembered, up to decimals of the holdings. -/
structure Evenly (alike : L.Pos → L.Pos → Prop) (s s' : Tally L) : Prop where
  names : s'.names = s.names
  terms : s'.terms = s.terms
  standing : s'.standing = s.standing
  held : ∀ a, Option.Rel alike (s.held a) (s'.held a)
  pending : s'.pending = s.pending

variable {s s' : Tally L}

theorem Evenly.account (h : Evenly alike s s') (a : Str) : s'.account a = s.account a := by
  unfold Tally.account
  rw [h.standing]

theorem Evenly.usage (h : Evenly alike s s') (a cur : Str) : s'.usage a cur = s.usage a cur := by
  unfold Tally.usage
  rw [h.account, h.terms]

theorem Evenly.method (h : Evenly alike s s') (option : Option Booking) : s'.method option = s.method option := by
  funext a
  unfold Tally.method
  rw [h.terms]

theorem Evenly.total (hB : BlindToDecimals L tol alike) (h : Evenly alike s s') (a cur : Str) : (s'.total a cur).val = (s.total a cur).val := by
  unfold Tally.total
  rw [h.names, Dec.val_sum, Dec.val_sum, List.map_map, List.map_map]
  congr 1
  refine List.map_congr_left fun b _ => ?_
  have := h.held b
  simp only [Function.comp]
  generalize s.held b = x at this
  generalize s'.held b = y at this
  cases this with
  | none => rfl
  | some h => exact hB.units _ _ _ h

theorem Evenly.wrongPosting (h : Evenly alike s s') (i : Nat) {is is' : List Interpolated} {ps ps' : List Raw.PostingSpec}
    (hi : List.Forall₂ EqualInterpolated is is') (hp : List.Forall₂ EqualLine ps ps') :
    s'.wrongPosting i (is'.zip ps') = s.wrongPosting i (is.zip ps) := by
  induction hi generalizing i ps ps' with
  | nil => rfl
  | cons hi _ ih =>
    cases hp with
    | nil => rfl
    | cons hp hps =>
      simp only [List.zip_cons_cons, Tally.wrongPosting, hi.currency, hp.acc, h.usage]
      rw [ih _ hps]

/-- Findings which are the same, up to decimals and the text of the library. -/
inductive EvenFault : Fault → Fault → Prop
  | same (x) : EvenFault x x
  | refused {e e'} : BookError.Alike e e' → EvenFault (.refused e) (.refused e')
  | gap (cur) {units units'} : EqualAmount units units' → EvenFault (.gap units cur) (.gap units' cur)

structure EvenFinding (x y : Finding) : Prop where
  directive : y.directive = x.directive
  posting : y.posting = x.posting
  fault : EvenFault x.fault y.fault

theorem EvenFinding.refl (x : Finding) : EvenFinding x x := ⟨rfl, rfl, .same _⟩

/-- The outcome of a directive, and that when written in another way. -/
inductive EvenStep (alike : L.Pos → L.Pos → Prop) : Option (Tally L × List Finding) → Option (Tally L × List Finding) → Prop
  | crash : EvenStep alike none none
  | fine {t t' fs fs'} : Evenly alike t t' → List.Forall₂ EvenFinding fs fs' → EvenStep alike (some (t, fs)) (some (t', fs'))

theorem Evenly.setHeld (h : Evenly alike s s') (x : Str) {v v' : Option L.Pos} (hv : Option.Rel alike v v') (a : Str) :
    Option.Rel alike (Function.update s.held x v a) (Function.update s'.held x v' a) := by
  by_cases hx : a = x
  · subst hx; simpa using hv
  · simpa [Function.update_of_ne hx] using h.held a

theorem Evenly.setPending (h : Evenly alike s s') (x : Str) (p : Option (Nat × Str)) :
    Evenly alike { s with pending := Function.update s.pending x p } { s' with pending := Function.update s'.pending x p } :=
  ⟨h.names, h.terms, h.standing, h.held, by simp only [h.pending]⟩

theorem Evenly.setStanding (h : Evenly alike s s') (x : Str) (v : Standing) :
    Evenly alike { s with standing := Function.update s.standing x v } { s' with standing := Function.update s'.standing x v } :=
  ⟨h.names, h.terms, by simp only [h.standing], h.held, h.pending⟩

theorem Evenly.change (hB : BlindToDecimals L tol alike) (h : Evenly alike s s') (x : Str) {u v : Dec} (hu : EqualAmount u v) (cur : Str) :
    Evenly alike (s.change x u cur) (s'.change x v cur) := by
  refine ⟨h.names, h.terms, h.standing, fun a => ?_, h.pending⟩
  refine h.setHeld x ?_ a
  have := h.held x
  generalize s.held x = y at this
  generalize s'.held x = y' at this
  cases this with
  | none => exact .none
  | some h => exact .some (hB.accumulate _ _ _ _ _ h hu)

theorem found_same (l : List Finding) : List.Forall₂ EvenFinding l l := List.forall₂_same.2 fun x _ => .refl x

/-- The gap at an assertion. -/
theorem Evenly.gap (hB : BlindToDecimals L tol alike) (h : Evenly alike s s') {b b' : Raw.Balance} (ha : b'.acc = b.acc) (hc : b'.cur = b.cur)
    (hu : EqualAmount b.units b'.units) : EqualAmount (b.units.sub (s.total b.acc b.cur)) (b'.units.sub (s'.total b'.acc b'.cur)) := by
  unfold EqualAmount at *
  rw [Dec.val_sub, Dec.val_sub, ha, hc, h.total hB, hu]

theorem gt_even {u v t t' : Dec} (h : EqualAmount u v) (ht : t'.val = t.val) : (Dec.abs v).gt t' = (Dec.abs u).gt t := by
  rw [Bool.eq_iff_iff, Dec.gt_iff, Dec.gt_iff, Dec.val_abs, Dec.val_abs, ht, show v.val = u.val from h]

theorem Evenly.stepBalance (hB : BlindToDecimals L tol alike) {option : Option Booking} (h : Evenly alike s s') (n : Nat)
    {d d' : Raw.Directive} {b b' : Raw.Balance} (hd : d.variant = .balance b) (hd' : d'.variant = .balance b')
    (ha : b'.acc = b.acc) (hc : b'.cur = b.cur) (hu : EqualAmount b.units b'.units) (ht : tolerance tol.multiplier b' = tolerance tol.multiplier b) :
    EvenStep alike (s.step option tol n d) (s'.step option tol n d') := by
  have hg := h.gap hB ha hc hu
  have hgt := gt_even (t := toleranceDec tol.multiplier b) (t' := toleranceDec tol.multiplier b') hg (by rw [tolerance_val, tolerance_val, ht])
  simp only [Tally.step, hd, hd', h.usage, hgt]
  rw [ha, hc, h.pending] at *
  cases s.usage b.acc b.cur with
  | some x => exact .fine h (found_same _)
  | none =>
    simp only
    cases (Dec.abs (b.units.sub (s.total b.acc b.cur))).gt (toleranceDec tol.multiplier b) with
    | false =>
      cases s.pending b.acc with
      | none => exact .fine h .nil
      | some p => exact .fine (by simpa only [h.pending] using h.setPending b.acc none) (found_same _)
    | true =>
      cases hp : s.pending b.acc with
      | none => exact .fine (h.change hB _ hg _) (.cons ⟨rfl, rfl, .gap _ hg⟩ .nil)
      | some p =>
        obtain ⟨k, src⟩ := p
        simp only [h.names]
        by_cases hm : src ∈ s.names
        · rw [if_pos hm, if_pos hm]
          refine .fine ?_ .nil
          have hneg : EqualAmount (b.units.sub (s.total b.acc b.cur)).neg (b'.units.sub (s'.total b.acc b.cur)).neg := by
            unfold EqualAmount at *
            rw [Dec.val_neg, Dec.val_neg, hg]
          have := ((h.setPending b.acc none).change hB b.acc hg b.cur).change hB src hneg b.cur
          simpa only [h.pending, h.names] using this
        · rw [if_neg hm, if_neg hm]
          exact .crash

theorem Evenly.stepTransaction {option : Option Booking} (h : Evenly alike s s') (n : Nat) {d d' : Raw.Directive} {t t' : Raw.Transaction}
    (hd : d.variant = .transaction t) (hd' : d'.variant = .transaction t') (hl : List.Forall₂ EqualLine t.postings t'.postings)
    (ha : EqualAnswer alike s.held s'.held (L.book d.date t.postings tol s.held (s.method option))
      (L.book d'.date t'.postings tol s'.held (s.method option))) :
    EvenStep alike (s.step option tol n d) (s'.step option tol n d') := by
  simp only [Tally.step, hd, hd', h.method]
  generalize L.book d.date t.postings tol s.held (s.method option) = r at ha
  generalize L.book d'.date t'.postings tol s'.held (s.method option) = r' at ha
  cases ha with
  | refused he => exact .fine h (.cons ⟨rfl, rfl, .refused he⟩ .nil)
  | booked hi hh =>
    simp only [h.wrongPosting 0 hi hl]
    cases s.wrongPosting 0 _ with
    | some z => exact .fine h (found_same _)
    | none => exact .fine ⟨h.names, h.terms, h.standing, hh, h.pending⟩ .nil

theorem equalLine_refl (ps : List Raw.PostingSpec) : List.Forall₂ EqualLine ps ps := List.forall₂_same.2 fun _ _ => ⟨rfl, rfl, rfl, rfl, rfl⟩

theorem Evenly.stepSame (hB : BlindToDecimals L tol alike) {option : Option Booking} (h : Evenly alike s s') (n : Nat) {d d' : Raw.Directive}
    (hv : d'.variant = d.variant) (hdate : d'.date = d.date) : EvenStep alike (s.step option tol n d) (s'.step option tol n d') := by
  obtain ⟨span, date, tags, links, metadata, v⟩ := d
  obtain ⟨span', date', tags', links', metadata', v'⟩ := d'
  simp only at hv hdate
  subst hv
  subst hdate
  have same : EvenStep alike (some (s, [])) (some (s', [])) := .fine h .nil
  have unch : ∀ {x}, EvenStep alike (s.unchanged n x) (s'.unchanged n x) := .fine h (found_same _)
  cases v' with
  | opn o =>
    simp only [Tally.step, h.standing]
    cases s.standing o.acc with
    | unknown => exact .fine ⟨by simp [h.names], by simp only [h.terms], rfl, h.setHeld _ (.some hB.empty), h.pending⟩ .nil
    | opn k => exact unch
    | reopened k j => exact unch
    | closed k => exact .fine (by simpa only [h.standing] using h.setStanding o.acc (.reopened n k)) (found_same _)
  | close c =>
    simp only [Tally.step, h.standing]
    cases s.standing c.acc with
    | unknown => exact unch
    | opn k => exact .fine (by simpa only [h.standing] using h.setStanding c.acc (.closed n)) .nil
    | reopened k j => exact unch
    | closed k => exact unch
  | transaction t => exact h.stepTransaction n rfl rfl (equalLine_refl _) (hB.book _ _ _ _ _ h.held)
  | balance b => exact h.stepBalance hB n rfl rfl rfl rfl rfl rfl
  | pad p =>
    simp only [Tally.step, h.account, h.pending]
    cases ha : s.account p.acc with
    | some x => exact unch
    | none =>
      cases s.pending p.acc with
      | some q => exact .fine (by simpa only [h.pending] using h.setPending p.acc none) (found_same _)
      | none => exact .fine (by simpa only [h.pending] using h.setPending p.acc (some (n, p.source))) .nil
  | price _ => exact same
  | commodity _ => exact same
  | document _ => exact same
  | note _ => exact same
  | event _ => exact same
  | query _ => exact same
  | custom _ => exact same

theorem Evenly.step (hB : BlindToDecimals L tol alike) {option : Option Booking} (h : Evenly alike s s') (n : Nat) {d d' : Raw.Directive}
    (hd : Rewritten L tol alike d d') : EvenStep alike (s.step option tol n d) (s'.step option tol n d') := by
  cases hd with
  | same span => exact h.stepSame hB n rfl rfl
  | transaction span hv hl ha => exact h.stepTransaction n hv rfl hl (ha _ _ _ h.held)
  | balance span hv ha hc hu ht => exact h.stepBalance hB n hv rfl ha hc hu ht

theorem Evenly.run (hB : BlindToDecimals L tol alike) {option : Option Booking} {ds ds' : List Raw.Directive}
    (hd : List.Forall₂ (Rewritten L tol alike) ds ds') (n : Nat) {s s' : Tally L} (h : Evenly alike s s') :
    EvenStep alike (Tally.run option tol n s ds) (Tally.run option tol n s' ds') := by
  induction hd generalizing n s s' with
  | nil => exact .fine h .nil
  | @cons d d' ds ds' hd _ ih =>
    have h1 := h.step hB (option := option) n hd
    simp only [Tally.run]
    generalize s.step option tol n d = r at h1
    generalize s'.step option tol n d' = r' at h1
    cases h1 with
    | crash => exact .crash
    | fine ht hfs =>
      have h2 := ih (n + 1) ht
      simp only
      generalize Tally.run option tol (n + 1) _ ds = q at h2
      generalize Tally.run option tol (n + 1) _ ds' = q' at h2
      cases h2 with
      | crash => exact .crash
      | fine ht' hfs' => exact .fine ht' (List.rel_append hfs hfs')

/-! ### The directives written -/

theorem equalPrice_refl (p : Booked.Price) : EqualPrice p p := ⟨rfl, rfl, by cases p.total <;> constructor; rfl⟩

theorem lotPostings_even (k : Nat) {i i' : Interpolated} {p p' : Raw.PostingSpec} (hi : EqualInterpolated i i') (hp : EqualLine p p') :
    List.Forall₂ EqualPosting (lotPostings k i p) (lotPostings k i' p') := by
  obtain ⟨u, c, cost, price⟩ := i
  obtain ⟨u', c', cost', price'⟩ := i'
  obtain ⟨hu, hc, hcost, hprice⟩ := hi
  obtain ⟨h1, h2, h3, h4, h5⟩ := hp
  simp only at hu hc hcost hprice
  subst hc
  unfold lotPostings
  simp only [h1, h2, h3, h4, h5]
  cases hcost with
  | none => exact .cons ⟨rfl, hu, .none, hprice⟩ .nil
  | some hl =>
    rw [List.forall₂_map_left_iff, List.forall₂_map_right_iff]
    refine hl.imp fun l l' hl => ?_
    obtain ⟨e, a1, a2, a3⟩ := hl
    refine ⟨rfl, a1, .some ⟨?_, a2, a3⟩, .none⟩
    rw [e]

theorem postingsFor_even {is is' : List Interpolated} {ps ps' : List Raw.PostingSpec}
    (hi : List.Forall₂ EqualInterpolated is is') (hp : List.Forall₂ EqualLine ps ps') :
    List.Forall₂ EqualPosting (postingsFor (is.zip ps)) (postingsFor (is'.zip ps')) := by
  unfold postingsFor
  generalize 0 = k
  induction hi generalizing k ps ps' with
  | nil => exact .nil
  | cons hi _ ih =>
    cases hp with
    | nil => exact .nil
    | cons hp hps =>
      simp only [List.zip_cons_cons, List.zipIdx_cons, List.flatMap_cons]
      exact List.rel_append (lotPostings_even k hi hp) (ih hps _)

theorem equalBooked_refl (d : Booked.Directive) : EqualBooked d d := ⟨rfl, .same _⟩

theorem Evenly.emits (hB : BlindToDecimals L tol alike) {option : Option Booking} (h : Evenly alike s s') (n : Nat) {d d' : Raw.Directive}
    (hd : Rewritten L tol alike d d') : List.Forall₂ EqualBooked (s.emits option tol n d) (s'.emits option tol n d') := by
  have txn : ∀ {d d' : Raw.Directive} {t t' : Raw.Transaction}, d.variant = .transaction t → d'.variant = .transaction t' →
      d'.date = d.date → d'.tags = d.tags → d'.links = d.links → d'.metadata = d.metadata → t' = { t with postings := t'.postings } →
      List.Forall₂ EqualLine t.postings t'.postings →
      EqualAnswer alike s.held s'.held (L.book d.date t.postings tol s.held (s.method option))
        (L.book d'.date t'.postings tol s'.held (s.method option)) →
      List.Forall₂ EqualBooked (s.emits option tol n d) (s'.emits option tol n d') := by
    intro d d' t t' hv hv' e1 e2 e3 e4 e5 hl ha
    obtain ⟨f1, f2, f3, ps⟩ := t
    obtain ⟨f1', f2', f3', ps'⟩ := t'
    simp only [Raw.Transaction.mk.injEq, and_true] at e5
    obtain ⟨rfl, rfl, rfl⟩ := e5
    simp only [Tally.emits, Tally.variants, hv, hv', h.method, e2, e3, e4]
    simp only at ha
    generalize L.book d.date ps tol s.held (s.method option) = r at ha
    generalize L.book d'.date ps' tol s'.held (s.method option) = r' at ha
    cases ha with
    | refused => exact .nil
    | booked hi _ =>
      rw [e1]
      exact .cons ⟨rfl, .transaction (postingsFor_even hi hl)⟩ .nil
  cases hd with
  | same span =>
    cases hv : d.variant with
    | transaction t => exact txn hv rfl rfl rfl rfl rfl rfl (equalLine_refl _) (hB.book _ _ _ _ _ h.held)
    | _ =>
      simp only [Tally.emits, Tally.variants, hv]
      exact List.forall₂_same.2 fun x _ => equalBooked_refl x
  | transaction span hv hl ha => exact txn hv rfl rfl rfl rfl rfl rfl hl (ha _ _ _ h.held)
  | balance span hv ha hc hu ht =>
    simp only [Tally.emits, Tally.variants, hv]
    exact .cons ⟨rfl, .balance ha hc hu⟩ .nil

/-- A pad filled with the same, up to decimals. -/
def EvenFill (x y : Nat × List Booked.Posting) : Prop := y.1 = x.1 ∧ List.Forall₂ EqualPosting x.2 y.2

theorem Evenly.fills (hB : BlindToDecimals L tol alike) (h : Evenly alike s s') {d d' : Raw.Directive} (hd : Rewritten L tol alike d d') :
    Option.Rel EvenFill (s.fills tol d) (s'.fills tol d') := by
  have bal : ∀ {d d' : Raw.Directive} {b b' : Raw.Balance}, d.variant = .balance b → d'.variant = .balance b' → b'.acc = b.acc → b'.cur = b.cur →
      EqualAmount b.units b'.units → tolerance tol.multiplier b' = tolerance tol.multiplier b →
      Option.Rel EvenFill (s.fills tol d) (s'.fills tol d') := by
    intro d d' b b' hv hv' ha hc hu ht
    have hg := h.gap hB ha hc hu
    have hgt := gt_even (t := toleranceDec tol.multiplier b) (t' := toleranceDec tol.multiplier b') hg (by rw [tolerance_val, tolerance_val, ht])
    simp only [Tally.fills, hv, hv', hgt]
    rw [ha, hc, h.pending] at *
    cases (Dec.abs (b.units.sub (s.total b.acc b.cur))).gt (toleranceDec tol.multiplier b) with
    | false => cases s.pending b.acc <;> exact .none
    | true =>
      cases s.pending b.acc with
      | none => exact .none
      | some p =>
        refine .some ⟨rfl, .cons ⟨rfl, hg, .none, .none⟩ (.cons ⟨rfl, ?_, .none, .none⟩ .nil)⟩
        unfold EqualAmount at *
        rw [Dec.val_neg, Dec.val_neg, hg]
  cases hd with
  | same span =>
    cases hv : d.variant with
    | balance b => exact bal hv rfl rfl rfl rfl rfl
    | _ => simp only [Tally.fills, hv]; exact .none
  | transaction span hv hl ha => simp only [Tally.fills, hv]; exact .none
  | balance span hv ha hc hu ht => exact bal hv rfl ha hc hu ht

theorem Evenly.history (hB : BlindToDecimals L tol alike) {option : Option Booking} {ds ds' : List Raw.Directive}
    (hd : List.Forall₂ (Rewritten L tol alike) ds ds') (n : Nat) {s s' : Tally L} (h : Evenly alike s s') :
    List.Forall₂ EqualBooked ((Tally.history option tol n s ds).flatMap fun x => x.1.emits option tol x.2.1 x.2.2)
      ((Tally.history option tol n s' ds').flatMap fun x => x.1.emits option tol x.2.1 x.2.2) ∧
    List.Forall₂ EvenFill ((Tally.history option tol n s ds).filterMap fun x => x.1.fills tol x.2.2)
      ((Tally.history option tol n s' ds').filterMap fun x => x.1.fills tol x.2.2) := by
  induction hd generalizing n s s' with
  | nil => exact ⟨.nil, .nil⟩
  | @cons d d' ds ds' hd _ ih =>
    have h1 := h.step hB (option := option) n hd
    have h2 := h.emits hB (option := option) n hd
    have h3 := h.fills hB hd
    simp only [Tally.history]
    have key : ∀ {X X' : List (Tally L × Nat × Raw.Directive)},
        List.Forall₂ EqualBooked (X.flatMap fun x => x.1.emits option tol x.2.1 x.2.2) (X'.flatMap fun x => x.1.emits option tol x.2.1 x.2.2) ∧
        List.Forall₂ EvenFill (X.filterMap fun x => x.1.fills tol x.2.2) (X'.filterMap fun x => x.1.fills tol x.2.2) →
        List.Forall₂ EqualBooked (((s, n, d) :: X).flatMap fun x => x.1.emits option tol x.2.1 x.2.2)
          (((s', n, d') :: X').flatMap fun x => x.1.emits option tol x.2.1 x.2.2) ∧
        List.Forall₂ EvenFill (((s, n, d) :: X).filterMap fun x => x.1.fills tol x.2.2)
          (((s', n, d') :: X').filterMap fun x => x.1.fills tol x.2.2) := by
      rintro X X' ⟨e1, e2⟩
      refine ⟨?_, ?_⟩
      · simp only [List.flatMap_cons]
        exact List.rel_append h2 e1
      · simp only [List.filterMap_cons]
        generalize s.fills tol d = f at h3
        generalize s'.fills tol d' = f' at h3
        cases h3 with
        | none => exact e2
        | some hf => exact .cons hf e2
    refine key ?_
    generalize s.step option tol n d = r at h1
    generalize s'.step option tol n d' = r' at h1
    cases h1 with
    | crash => exact ⟨.nil, .nil⟩
    | fine ht hfs => exact ih (n + 1) ht

theorem find_even {F F' : List (Nat × List Booked.Posting)} (hF : List.Forall₂ EvenFill F F') (k : Nat) :
    Option.Rel EvenFill (F.find? fun z => z.1 = k) (F'.find? fun z => z.1 = k) := by
  induction hF with
  | nil => exact .none
  | @cons x y _ _ h _ ih =>
    simp only [List.find?_cons, h.1]
    cases decide (x.1 = k) with
    | true => exact .some h
    | false => exact ih

theorem fillIn_even {F F' : List (Nat × List Booked.Posting)} (hF : List.Forall₂ EvenFill F F') {d d' : Booked.Directive}
    (h : EqualBooked d d') : EqualBooked (fillIn F d) (fillIn F' d') := by
  obtain ⟨idx, date, tags, links, metadata, v⟩ := d
  obtain ⟨idx', date', tags', links', metadata', v'⟩ := d'
  obtain ⟨e, hv⟩ := h
  simp only [Booked.Directive.mk.injEq, and_true] at e
  obtain ⟨rfl, rfl, rfl, rfl, rfl⟩ := e
  have hf := find_even hF idx'
  simp only at hv
  unfold fillIn
  dsimp only
  generalize F.find? (fun z => z.1 = idx') = f at hf
  generalize F'.find? (fun z => z.1 = idx') = f' at hf
  cases hv with
  | same =>
    cases v with
    | transaction t =>
      cases hf with
      | none => exact equalBooked_refl _
      | some hf => exact ⟨rfl, .transaction (t := { t with postings := _ }) hf.2⟩
    | _ => exact equalBooked_refl _
  | transaction hp =>
    cases hf with
    | none => exact ⟨rfl, .transaction hp⟩
    | some hf => exact ⟨rfl, .transaction (t := ⟨_, _, _, _⟩) hf.2⟩
  | balance ha hc hu => exact ⟨rfl, .balance ha hc hu⟩

theorem Evenly.init : Evenly alike (Tally.init L) (Tally.init L) := ⟨rfl, rfl, rfl, fun _ => .none, rfl⟩

theorem Evenly.unbalanced (h : Evenly alike s s') : s'.unbalanced = s.unbalanced := by
  unfold Tally.unbalanced
  rw [h.names, h.pending]

theorem even_audit (hB : BlindToDecimals L tol alike) (option : Option Booking) {ds ds' : List Raw.Directive}
    (hd : List.Forall₂ (Rewritten L tol alike) ds ds') :
    (audit L option tol ds = none ∧ audit L option tol ds' = none) ∨
    ∃ fs fs' ps, audit L option tol ds = some (fs, ps) ∧ audit L option tol ds' = some (fs', ps) ∧ List.Forall₂ EvenFinding fs fs' := by
  have h := Evenly.run hB (option := option) hd 0 (Evenly.init (L := L))
  unfold audit
  generalize Tally.run option tol 0 (Tally.init L) ds = r at h
  generalize Tally.run option tol 0 (Tally.init L) ds' = r' at h
  cases h with
  | crash => exact .inl ⟨rfl, rfl⟩
  | fine ht hfs => exact .inr ⟨_, _, _, rfl, by simp only [Option.map_some, ht.unbalanced], hfs⟩

theorem even_returned (hB : BlindToDecimals L tol alike) (option : Option Booking) {ds ds' : List Raw.Directive}
    (hd : List.Forall₂ (Rewritten L tol alike) ds ds') :
    List.Forall₂ EqualBooked (returned L option tol ds) (returned L option tol ds') := by
  obtain ⟨h1, h2⟩ := Evenly.history hB (option := option) hd 0 (Evenly.init (L := L))
  unfold returned returnedOf
  rw [List.forall₂_map_left_iff, List.forall₂_map_right_iff]
  exact h1.imp fun d d' h => fillIn_even h2 h

theorem even_warned {ds ds' : List Raw.Directive} (hd : List.Forall₂ (Rewritten L tol alike) ds ds') : warned L ds' = warned L ds := by
  unfold warned
  generalize 0 = k
  induction hd generalizing k with
  | nil => rfl
  | cons hd _ ih =>
    simp only [List.zipIdx_cons, List.flatMap_cons, ih]
    congr 1
    cases hd with
    | same => rfl
    | transaction span hv => simp only [warns, hv]
    | balance span hv => simp only [warns, hv]

end Limabean
