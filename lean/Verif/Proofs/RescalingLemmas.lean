/-
What is remembered of a ledger counted in other units.
-/
import Verif.Spec.Rescaling
import Verif.Proofs.RewordingLemmas

namespace Limabean

open Spec

variable {L : BookLib} {f : Str → ℚ} {tol tol' : Tolerance} {alike : L.Pos → L.Pos → Prop}

variable {s s' : Tally L}

theorem Evenly.totalIn (hB : CountsWith f L alike) (h : Evenly alike s s') (a cur : Str) : (s'.total a cur).val = f cur * (s.total a cur).val := by
  unfold Tally.total
  rw [h.names, Dec.val_sum, Dec.val_sum, List.map_map, List.map_map]
  have one : ∀ b, (L.units ((s'.held b).getD L.empty) cur).val = f cur * (L.units ((s.held b).getD L.empty) cur).val := by
    intro b
    have := h.held b
    generalize s.held b = x at this
    generalize s'.held b = y at this
    cases this with
    | none => exact hB.units _ _ _ hB.empty
    | some h => exact hB.units _ _ _ h
  generalize s.names.filter _ = l
  induction l with
  | nil => simp
  | cons b l ih => simp only [List.map_cons, List.sum_cons, ih, Function.comp, one, mul_add]

theorem Evenly.wrongScaled (h : Evenly alike s s') (i : Nat) {is is' : List Interpolated} {ps ps' : List Raw.PostingSpec}
    (hi : List.Forall₂ (ScaledInterpolated f) is is') (hp : List.Forall₂ EqualLine ps ps') :
    s'.wrongPosting i (is'.zip ps') = s.wrongPosting i (is.zip ps) := by
  induction hi generalizing i ps ps' with
  | nil => rfl
  | cons hi _ ih =>
    cases hp with
    | nil => rfl
    | cons hp hps =>
      simp only [List.zip_cons_cons, Tally.wrongPosting, hi.currency, hp.acc, h.usage]
      rw [ih _ hps]

/-- Findings which are the same, in the other units and up to the text of the library. -/
inductive ScaledFault (f : Str → ℚ) : Fault → Fault → Prop
  | same {x} : (∀ u c, x ≠ .gap u c) → ScaledFault f x x
  | refused {e e'} : BookError.Alike e e' → ScaledFault f (.refused e) (.refused e')
  | gap (cur) {units units'} : ScaledAmount (f cur) units units' → ScaledFault f (.gap units cur) (.gap units' cur)

structure ScaledFinding (f : Str → ℚ) (x y : Finding) : Prop where
  directive : y.directive = x.directive
  posting : y.posting = x.posting
  fault : ScaledFault f x.fault y.fault

theorem scaled_found (n : Nat) (i : Option Nat) {x : Fault} (h : ∀ u c, x ≠ .gap u c) :
    List.Forall₂ (ScaledFinding f) [{ directive := n, posting := i, fault := x }] [{ directive := n, posting := i, fault := x }] :=
  .cons ⟨rfl, rfl, .same h⟩ .nil

/-- The outcome of a directive, and that in the other units. -/
inductive ScaledStep (f : Str → ℚ) (alike : L.Pos → L.Pos → Prop) : Option (Tally L × List Finding) → Option (Tally L × List Finding) → Prop
  | crash : ScaledStep f alike none none
  | fine {t t' fs fs'} : Evenly alike t t' → List.Forall₂ (ScaledFinding f) fs fs' → ScaledStep f alike (some (t, fs)) (some (t', fs'))

theorem Evenly.add (hB : CountsWith f L alike) (h : Evenly alike s s') (x : Str) {u v : Dec} {cur : Str} (hu : ScaledAmount (f cur) u v) :
    Evenly alike (s.change x u cur) (s'.change x v cur) := by
  refine ⟨h.names, h.terms, h.standing, fun a => ?_, h.pending⟩
  refine h.setHeld x ?_ a
  have := h.held x
  generalize s.held x = y at this
  generalize s'.held x = y' at this
  cases this with
  | none => exact .none
  | some h => exact .some (hB.accumulate _ _ _ _ _ h hu)

/-- The gap at an assertion. -/
theorem Evenly.gapIn (hB : CountsWith f L alike) (h : Evenly alike s s') {b b' : Raw.Balance} (ha : b'.acc = b.acc) (hc : b'.cur = b.cur)
    (hu : ScaledAmount (f b.cur) b.units b'.units) :
    ScaledAmount (f b.cur) (b.units.sub (s.total b.acc b.cur)) (b'.units.sub (s'.total b'.acc b'.cur)) := by
  unfold ScaledAmount at *
  rw [Dec.val_sub, Dec.val_sub, ha, hc, h.totalIn hB, hu]
  ring

theorem gt_scaled {k : ℚ} (hk : k ≠ 0) {u v t t' : Dec} (h : ScaledAmount k u v) (ht : t'.val = |k| * t.val) :
    (Dec.abs v).gt t' = (Dec.abs u).gt t := by
  rw [Bool.eq_iff_iff, Dec.gt_iff, Dec.gt_iff, Dec.val_abs, Dec.val_abs, ht, show v.val = k * u.val from h, abs_mul]
  exact mul_lt_mul_iff_right₀ (abs_pos.2 hk)

theorem neg_scaled {k : ℚ} {u v : Dec} (h : ScaledAmount k u v) : ScaledAmount k u.neg v.neg := by
  unfold ScaledAmount at *
  rw [Dec.val_neg, Dec.val_neg, h]
  ring

theorem Evenly.scaleBalance (hk : ∀ c, f c ≠ 0) (hB : CountsWith f L alike) {option : Option Booking} (h : Evenly alike s s') (n : Nat)
    {d d' : Raw.Directive} {b b' : Raw.Balance} (hd : d.variant = .balance b) (hd' : d'.variant = .balance b')
    (ha : b'.acc = b.acc) (hc : b'.cur = b.cur) (hu : ScaledAmount (f b.cur) b.units b'.units)
    (ht : tolerance tol'.multiplier b' = |f b.cur| * tolerance tol.multiplier b) :
    ScaledStep f alike (s.step option tol n d) (s'.step option tol' n d') := by
  have hg := h.gapIn hB ha hc hu
  have hgt := gt_scaled (t := toleranceDec tol.multiplier b) (t' := toleranceDec tol'.multiplier b') (hk _) hg
    (by rw [tolerance_val, tolerance_val, ht])
  simp only [Tally.step, hd, hd', h.usage, hgt]
  rw [ha, hc, h.pending] at *
  cases hx : s.usage b.acc b.cur with
  | some x => exact .fine h (scaled_found _ _ (usage_fault hx))
  | none =>
    simp only
    cases (Dec.abs (b.units.sub (s.total b.acc b.cur))).gt (toleranceDec tol.multiplier b) with
    | false =>
      cases s.pending b.acc with
      | none => exact .fine h .nil
      | some p => exact .fine (by simpa only [h.pending] using h.setPending b.acc none) (scaled_found _ _ (by simp))
    | true =>
      cases hp : s.pending b.acc with
      | none => exact .fine (h.add hB _ hg) (.cons ⟨rfl, rfl, .gap _ hg⟩ .nil)
      | some p =>
        obtain ⟨k, src⟩ := p
        simp only [h.names]
        by_cases hm : src ∈ s.names
        · rw [if_pos hm, if_pos hm]
          refine .fine ?_ .nil
          have := ((h.setPending b.acc none).add hB b.acc hg).add hB src (neg_scaled hg)
          simpa only [h.pending, h.names] using this
        · rw [if_neg hm, if_neg hm]
          exact .crash

theorem Evenly.scaleTransaction {option : Option Booking} (h : Evenly alike s s') (n : Nat) {d d' : Raw.Directive} {t t' : Raw.Transaction}
    (hd : d.variant = .transaction t) (hd' : d'.variant = .transaction t') (hl : List.Forall₂ EqualLine t.postings t'.postings)
    (ha : ScaledAnswer f alike s.held s'.held (L.book d.date t.postings tol s.held (s.method option))
      (L.book d'.date t'.postings tol' s'.held (s.method option))) :
    ScaledStep f alike (s.step option tol n d) (s'.step option tol' n d') := by
  simp only [Tally.step, hd, hd', h.method]
  generalize L.book d.date t.postings tol s.held (s.method option) = r at ha
  generalize L.book d'.date t'.postings tol' s'.held (s.method option) = r' at ha
  cases ha with
  | refused he => exact .fine h (.cons ⟨rfl, rfl, .refused he⟩ .nil)
  | booked hi hh =>
    simp only [h.wrongScaled 0 hi hl]
    cases hw : s.wrongPosting 0 _ with
    | some z => exact .fine h (scaled_found _ _ (wrongPosting_fault hw))
    | none => exact .fine ⟨h.names, h.terms, h.standing, hh, h.pending⟩ .nil

theorem Evenly.scaleSame (hB : CountsWith f L alike) {option : Option Booking} (h : Evenly alike s s') (n : Nat) {d : Raw.Directive}
    (span : Option Span) (hd : NoAmount d) : ScaledStep f alike (s.step option tol n d) (s'.step option tol' n { d with span := span }) := by
  obtain ⟨span', date, tags, links, metadata, v⟩ := d
  have same : ScaledStep f alike (some (s, [])) (some (s', [])) := .fine h .nil
  have unch : ∀ {x}, (∀ u c, x ≠ Fault.gap u c) → ScaledStep f alike (s.unchanged n x) (s'.unchanged n x) := fun hx => .fine h (scaled_found n _ hx)
  cases v with
  | opn o =>
    simp only [Tally.step, h.standing]
    cases s.standing o.acc with
    | unknown => exact .fine ⟨by simp [h.names], by simp only [h.terms], rfl, h.setHeld _ (.some hB.empty), h.pending⟩ .nil
    | opn k => exact unch (by simp)
    | reopened k j => exact unch (by simp)
    | closed k => exact .fine (by simpa only [h.standing] using h.setStanding o.acc (.reopened n k)) (scaled_found _ _ (by simp))
  | close c =>
    simp only [Tally.step, h.standing]
    cases s.standing c.acc with
    | unknown => exact unch (by simp)
    | opn k => exact .fine (by simpa only [h.standing] using h.setStanding c.acc (.closed n)) .nil
    | reopened k j => exact unch (by simp)
    | closed k => exact unch (by simp)
  | transaction t => exact absurd rfl (hd.1 t)
  | balance b => exact absurd rfl (hd.2.1 b)
  | pad p =>
    simp only [Tally.step, h.account, h.pending]
    cases ha : s.account p.acc with
    | some x => exact unch (account_fault ha)
    | none =>
      cases s.pending p.acc with
      | some q => exact .fine (by simpa only [h.pending] using h.setPending p.acc none) (scaled_found _ _ (by simp))
      | none => exact .fine (by simpa only [h.pending] using h.setPending p.acc (some (n, p.source))) .nil
  | price _ => exact same
  | commodity _ => exact same
  | document _ => exact same
  | note _ => exact same
  | event _ => exact same
  | query _ => exact same
  | custom _ => exact same

theorem Evenly.scaleStep (hk : ∀ c, f c ≠ 0) (hB : CountsWith f L alike) {option : Option Booking} (h : Evenly alike s s') (n : Nat)
    {d d' : Raw.Directive} (hd : Rescaled f L tol tol' alike d d') : ScaledStep f alike (s.step option tol n d) (s'.step option tol' n d') := by
  cases hd with
  | same span hn => exact h.scaleSame hB n span hn
  | transaction span hv hl ha => exact h.scaleTransaction n hv rfl hl (ha _ _ _ h.held)
  | balance span hv ha hc hu ht => exact h.scaleBalance hk hB n hv rfl ha hc hu ht
  | price span hv hu ht =>
    simp only [Tally.step, hv]
    exact .fine h .nil

theorem Evenly.scaleRun (hk : ∀ c, f c ≠ 0) (hB : CountsWith f L alike) {option : Option Booking} {ds ds' : List Raw.Directive}
    (hd : List.Forall₂ (Rescaled f L tol tol' alike) ds ds') (n : Nat) {s s' : Tally L} (h : Evenly alike s s') :
    ScaledStep f alike (Tally.run option tol n s ds) (Tally.run option tol' n s' ds') := by
  induction hd generalizing n s s' with
  | nil => exact .fine h .nil
  | @cons d d' ds ds' hd _ ih =>
    have h1 := h.scaleStep hk hB (option := option) n hd
    simp only [Tally.run]
    generalize s.step option tol n d = r at h1
    generalize s'.step option tol' n d' = r' at h1
    cases h1 with
    | crash => exact .crash
    | fine ht hfs =>
      have h2 := ih (n + 1) ht
      simp only
      generalize Tally.run option tol (n + 1) _ ds = q at h2
      generalize Tally.run option tol' (n + 1) _ ds' = q' at h2
      cases h2 with
      | crash => exact .crash
      | fine ht' hfs' => exact .fine ht' (List.rel_append hfs hfs')

/-! ### The directives written -/

theorem lotPostings_scaled (k : Nat) {i i' : Interpolated} {p p' : Raw.PostingSpec} (hi : ScaledInterpolated f i i') (hp : EqualLine p p') :
    List.Forall₂ (ScaledPosting f) (lotPostings k i p) (lotPostings k i' p') := by
  obtain ⟨u, c, cost, price⟩ := i
  obtain ⟨u', c', cost', price'⟩ := i'
  obtain ⟨hu, hc, hcost, hprice⟩ := hi
  obtain ⟨h1, h2, h3, h4, h5⟩ := hp
  simp only at hu hc hcost hprice
  subst hc
  unfold lotPostings
  simp only [h1, h2, h3, h4, h5]
  cases hcost with
  | none => exact .cons ⟨rfl, hu, .none, hprice⟩ .nil
  | some hl =>
    rw [List.forall₂_map_left_iff, List.forall₂_map_right_iff]
    refine hl.imp fun l l' hl => ?_
    obtain ⟨e, a1, a2, a3⟩ := hl
    refine ⟨rfl, a1, .some ⟨?_, a2, a3⟩, .none⟩
    rw [e]

theorem postingsFor_scaled {is is' : List Interpolated} {ps ps' : List Raw.PostingSpec}
    (hi : List.Forall₂ (ScaledInterpolated f) is is') (hp : List.Forall₂ EqualLine ps ps') :
    List.Forall₂ (ScaledPosting f) (postingsFor (is.zip ps)) (postingsFor (is'.zip ps')) := by
  unfold postingsFor
  generalize 0 = k
  induction hi generalizing k ps ps' with
  | nil => exact .nil
  | cons hi _ ih =>
    cases hp with
    | nil => exact .nil
    | cons hp hps =>
      simp only [List.zip_cons_cons, List.zipIdx_cons, List.flatMap_cons]
      exact List.rel_append (lotPostings_scaled k hi hp) (ih hps _)

theorem Evenly.scaleEmits {option : Option Booking} (h : Evenly alike s s') (n : Nat) {d d' : Raw.Directive}
    (hd : Rescaled f L tol tol' alike d d') : List.Forall₂ (ScaledBooked f) (s.emits option tol n d) (s'.emits option tol' n d') := by
  cases hd with
  | same span hn =>
    have one : ∀ {v : Booked.Variant}, (∀ t, v ≠ .transaction t) → (∀ b, v ≠ .balance b) → (∀ p, v ≠ .price p) →
        ScaledBooked f { idx := n, date := d.date, tags := d.tags, links := d.links, metadata := d.metadata, variant := v }
          { idx := n, date := d.date, tags := d.tags, links := d.links, metadata := d.metadata, variant := v } := fun h1 h2 h3 => ⟨rfl, .same h1 h2 h3⟩
    cases hv : d.variant with
    | transaction t => exact absurd hv (hn.1 t)
    | balance b => exact absurd hv (hn.2.1 b)
    | price p => exact absurd hv (hn.2.2 p)
    | pad p =>
      simp only [Tally.emits, Tally.variants, hv]
      exact .cons (one (by simp) (by simp) (by simp)) (.cons ⟨rfl, .transaction .nil⟩ .nil)
    | _ =>
      simp only [Tally.emits, Tally.variants, hv]
      exact .cons (one (by simp) (by simp) (by simp)) .nil
  | @transaction t ps span hv hl ha =>
    have ha := ha _ _ (s.method option) h.held
    simp only [Tally.emits, Tally.variants, hv, h.method]
    generalize L.book d.date t.postings tol s.held (s.method option) = r at ha
    generalize L.book d.date ps tol' s'.held (s.method option) = r' at ha
    cases ha with
    | refused => exact .nil
    | booked hi _ => exact .cons ⟨rfl, .transaction (t := ⟨_, _, _, _⟩) (postingsFor_scaled hi hl)⟩ .nil
  | balance span hv ha hc hu ht =>
    simp only [Tally.emits, Tally.variants, hv]
    exact .cons ⟨rfl, .balance ha hc hu⟩ .nil
  | price span hv hu ht =>
    simp only [Tally.emits, Tally.variants, hv]
    exact .cons ⟨rfl, .price hu ht⟩ .nil

/-- A pad filled with the same, in the other units. -/
def ScaledFill (f : Str → ℚ) (x y : Nat × List Booked.Posting) : Prop := y.1 = x.1 ∧ List.Forall₂ (ScaledPosting f) x.2 y.2

theorem Evenly.scaleFills (hk : ∀ c, f c ≠ 0) (hB : CountsWith f L alike) (h : Evenly alike s s') {d d' : Raw.Directive}
    (hd : Rescaled f L tol tol' alike d d') : Option.Rel (ScaledFill f) (s.fills tol d) (s'.fills tol' d') := by
  cases hd with
  | same span hn =>
    cases hv : d.variant with
    | balance b => exact absurd hv (hn.2.1 b)
    | _ => simp only [Tally.fills, hv]; exact .none
  | transaction span hv hl ha => simp only [Tally.fills, hv]; exact .none
  | price span hv => simp only [Tally.fills, hv]; exact .none
  | @balance b b' span hv ha hc hu ht =>
    have hg := h.gapIn hB ha hc hu
    have hgt := gt_scaled (t := toleranceDec tol.multiplier b) (t' := toleranceDec tol'.multiplier b') (hk _) hg
      (by rw [tolerance_val, tolerance_val, ht])
    simp only [Tally.fills, hv, hgt]
    rw [ha, hc, h.pending] at *
    cases (Dec.abs (b.units.sub (s.total b.acc b.cur))).gt (toleranceDec tol.multiplier b) with
    | false => cases s.pending b.acc <;> exact .none
    | true =>
      cases s.pending b.acc with
      | none => exact .none
      | some p => exact .some ⟨rfl, .cons ⟨rfl, hg, .none, .none⟩ (.cons ⟨rfl, neg_scaled hg, .none, .none⟩ .nil)⟩

theorem Evenly.scaleHistory (hk : ∀ c, f c ≠ 0) (hB : CountsWith f L alike) {option : Option Booking} {ds ds' : List Raw.Directive}
    (hd : List.Forall₂ (Rescaled f L tol tol' alike) ds ds') (n : Nat) {s s' : Tally L} (h : Evenly alike s s') :
    List.Forall₂ (ScaledBooked f) ((Tally.history option tol n s ds).flatMap fun x => x.1.emits option tol x.2.1 x.2.2)
      ((Tally.history option tol' n s' ds').flatMap fun x => x.1.emits option tol' x.2.1 x.2.2) ∧
    List.Forall₂ (ScaledFill f) ((Tally.history option tol n s ds).filterMap fun x => x.1.fills tol x.2.2)
      ((Tally.history option tol' n s' ds').filterMap fun x => x.1.fills tol' x.2.2) := by
  induction hd generalizing n s s' with
  | nil => exact ⟨.nil, .nil⟩
  | @cons d d' ds ds' hd _ ih =>
    have h1 := h.scaleStep hk hB (option := option) n hd
    have h2 := h.scaleEmits (option := option) n hd
    have h3 := h.scaleFills hk hB hd
    have key : ∀ {X X' : List (Tally L × Nat × Raw.Directive)},
        List.Forall₂ (ScaledBooked f) (X.flatMap fun x => x.1.emits option tol x.2.1 x.2.2) (X'.flatMap fun x => x.1.emits option tol' x.2.1 x.2.2) ∧
        List.Forall₂ (ScaledFill f) (X.filterMap fun x => x.1.fills tol x.2.2) (X'.filterMap fun x => x.1.fills tol' x.2.2) →
        List.Forall₂ (ScaledBooked f) (((s, n, d) :: X).flatMap fun x => x.1.emits option tol x.2.1 x.2.2)
          (((s', n, d') :: X').flatMap fun x => x.1.emits option tol' x.2.1 x.2.2) ∧
        List.Forall₂ (ScaledFill f) (((s, n, d) :: X).filterMap fun x => x.1.fills tol x.2.2)
          (((s', n, d') :: X').filterMap fun x => x.1.fills tol' x.2.2) := by
      rintro X X' ⟨e1, e2⟩
      refine ⟨?_, ?_⟩
      · simp only [List.flatMap_cons]
        exact List.rel_append h2 e1
      · simp only [List.filterMap_cons]
        generalize s.fills tol d = x at h3
        generalize s'.fills tol' d' = x' at h3
        cases h3 with
        | none => exact e2
        | some hf => exact .cons hf e2
    simp only [Tally.history]
    refine key ?_
    generalize s.step option tol n d = r at h1
    generalize s'.step option tol' n d' = r' at h1
    cases h1 with
    | crash => exact ⟨.nil, .nil⟩
    | fine ht hfs => exact ih (n + 1) ht

theorem find_scaled {F F' : List (Nat × List Booked.Posting)} (hF : List.Forall₂ (ScaledFill f) F F') (k : Nat) :
    Option.Rel (ScaledFill f) (F.find? fun z => z.1 = k) (F'.find? fun z => z.1 = k) := by
  induction hF with
  | nil => exact .none
  | @cons x y _ _ h _ ih =>
    simp only [List.find?_cons, h.1]
    cases decide (x.1 = k) with
    | true => exact .some h
    | false => exact ih

theorem fillIn_scaled {F F' : List (Nat × List Booked.Posting)} (hF : List.Forall₂ (ScaledFill f) F F') {d d' : Booked.Directive}
    (h : ScaledBooked f d d') : ScaledBooked f (fillIn F d) (fillIn F' d') := by
  obtain ⟨idx, date, tags, links, metadata, v⟩ := d
  obtain ⟨idx', date', tags', links', metadata', v'⟩ := d'
  obtain ⟨e, hv⟩ := h
  simp only [Booked.Directive.mk.injEq, and_true] at e
  obtain ⟨rfl, rfl, rfl, rfl, rfl⟩ := e
  have hf := find_scaled hF idx'
  simp only at hv
  unfold fillIn
  dsimp only
  generalize F.find? (fun z => z.1 = idx') = x at hf
  generalize F'.find? (fun z => z.1 = idx') = x' at hf
  cases hv with
  | same h1 h2 h3 =>
    cases v with
    | transaction t => exact absurd rfl (h1 t)
    | _ => exact ⟨rfl, .same h1 h2 h3⟩
  | transaction hp =>
    cases hf with
    | none => exact ⟨rfl, .transaction hp⟩
    | some hf => exact ⟨rfl, .transaction (t := ⟨_, _, _, _⟩) hf.2⟩
  | balance ha hc hu => exact ⟨rfl, .balance ha hc hu⟩
  | price hu ht => exact ⟨rfl, .price hu ht⟩

theorem scaled_unbalanced (s : Tally L) : List.Forall₂ (ScaledFinding f) s.unbalanced s.unbalanced := by
  refine List.forall₂_same.2 fun x hx => ?_
  unfold Tally.unbalanced at hx
  obtain ⟨a, -, h⟩ := List.mem_filterMap.1 hx
  obtain ⟨p, -, rfl⟩ := Option.map_eq_some_iff.1 h
  exact ⟨rfl, rfl, .same (by simp)⟩

theorem scaled_audit (hk : ∀ c, f c ≠ 0) (hB : CountsWith f L alike) (option : Option Booking) {ds ds' : List Raw.Directive}
    (hd : List.Forall₂ (Rescaled f L tol tol' alike) ds ds') :
    (audit L option tol ds = none ∧ audit L option tol' ds' = none) ∨
    ∃ fs fs' ps, audit L option tol ds = some (fs, ps) ∧ audit L option tol' ds' = some (fs', ps) ∧ List.Forall₂ (ScaledFinding f) fs fs' ∧
      List.Forall₂ (ScaledFinding f) ps ps := by
  have h := Evenly.scaleRun hk hB (option := option) hd 0 (Evenly.init (L := L))
  unfold audit
  generalize Tally.run option tol 0 (Tally.init L) ds = r at h
  generalize Tally.run option tol' 0 (Tally.init L) ds' = r' at h
  cases h with
  | crash => exact .inl ⟨rfl, rfl⟩
  | fine ht hfs => exact .inr ⟨_, _, _, rfl, by simp only [Option.map_some, ht.unbalanced], hfs, scaled_unbalanced _⟩

theorem scaled_returned (hk : ∀ c, f c ≠ 0) (hB : CountsWith f L alike) (option : Option Booking) {ds ds' : List Raw.Directive}
    (hd : List.Forall₂ (Rescaled f L tol tol' alike) ds ds') :
    List.Forall₂ (ScaledBooked f) (returned L option tol ds) (returned L option tol' ds') := by
  obtain ⟨h1, h2⟩ := Evenly.scaleHistory hk hB (option := option) hd 0 (Evenly.init (L := L))
  unfold returned returnedOf
  rw [List.forall₂_map_left_iff, List.forall₂_map_right_iff]
  exact h1.imp fun d d' h => fillIn_scaled h2 h

theorem scaled_warned {ds ds' : List Raw.Directive} (hd : List.Forall₂ (Rescaled f L tol tol' alike) ds ds') : warned L ds' = warned L ds := by
  unfold warned
  generalize 0 = k
  induction hd generalizing k with
  | nil => rfl
  | cons hd _ ih =>
    simp only [List.zipIdx_cons, List.flatMap_cons, ih]
    congr 1
    cases hd with
    | same => rfl
    | transaction span hv => simp only [warns, hv]
    | balance span hv => simp only [warns, hv]
    | price span hv => simp only [warns, hv]

end Limabean
