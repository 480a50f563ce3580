/-
C58: booking looks neither at tags, links, metadata and source locations nor at the order of an account's currencies, and passes on what
is attached.
-/
import Verif.Proofs.AttachedLemmas
import Verif.Props.C16
import Verif.Props.C57

namespace Limabean

open Spec

/-- Outcomes which agree but for what is attached, and for the order of the trailing reports on unused pads. -/
def Spec.LikeOutcome (R : Attached) : Outcome → Outcome → Prop
  | .success out w, .success out' w' => List.Forall₂ (BookedLike R) out out' ∧ w = w'
  | .failure es, .failure es' => ∃ a b b', es = a ++ b ∧ es' = a ++ b' ∧ b.Perm b' ∧ ∀ rep ∈ b, rep.reason = .unusedNoBalance
  | .panic, .panic => True
  | _, _ => False

theorem trailing_trans {es es' es'' : List IndexedReport}
    (h : ∃ a b b', es = a ++ b ∧ es' = a ++ b' ∧ b.Perm b' ∧ ∀ rep ∈ b, rep.reason = .unusedNoBalance)
    (h' : ∃ a b b', es' = a ++ b ∧ es'' = a ++ b' ∧ b.Perm b' ∧ ∀ rep ∈ b, rep.reason = .unusedNoBalance) :
    ∃ a b b', es = a ++ b ∧ es'' = a ++ b' ∧ b.Perm b' ∧ ∀ rep ∈ b, rep.reason = .unusedNoBalance := by
  obtain ⟨a, b, b', rfl, rfl, hp, hr⟩ := h
  obtain ⟨c, d, d', he, rfl, hp', hr'⟩ := h'
  rcases List.append_eq_append_iff.1 he with ⟨x, rfl, rfl⟩ | ⟨x, rfl, rfl⟩
  · exact ⟨a, b, x ++ d', rfl, by simp, hp.trans (hp'.append_left x), hr⟩
  · refine ⟨c, x ++ b, d', by simp, rfl, (hp.append_left x).trans hp', ?_⟩
    intro rep hrep
    refine hr' rep ?_
    rcases List.mem_append.1 hrep with h | h
    · exact List.mem_append_left _ h
    · exact List.mem_append_right _ (hp.mem_iff.1 h)

/-- C58: if two ledgers agree but for source locations, the order of the currencies of accounts, and what is attached, the latter being
related by `R`, then booking them gives the same reports, or booked directives which agree in the same way. -/
theorem C58_attached {L : BookLib} (hL : Blind L) (R : Attached) (order order' : AMap Str (Account L) → AMap Str (Account L))
    (hf : ∀ m, (order m).Perm m) (hf' : ∀ m, (order' m).Perm m) (o : BookOptions) {ds es : List Raw.Directive}
    (hd : List.Forall₂ (DirectiveLike R) ds es) : LikeOutcome R (book L order o ds) (book L order' o es) := by
  have h1 := C16_order_independent L order id hf (fun _ => List.Perm.refl _) o ds
  have h2 := book_like hL o hd
  have h3 := C16_order_independent L id order' (fun _ => List.Perm.refl _) hf' o es
  revert h1 h2 h3
  generalize book L order o ds = x
  generalize book L id o ds = y
  generalize book L id o es = z
  generalize book L order' o es = w
  intro h1 h2 h3
  cases h2 with
  | success h =>
    cases x <;> simp only [SameOutcome] at h1
    cases w <;> simp only [SameOutcome] at h3
    obtain ⟨rfl, rfl⟩ := h1
    obtain ⟨rfl, rfl⟩ := h3
    exact ⟨h, rfl⟩
  | failure es =>
    cases x <;> simp only [SameOutcome] at h1
    cases w <;> simp only [SameOutcome] at h3
    exact trailing_trans h1 h3
  | panic =>
    cases x <;> simp only [SameOutcome] at h1
    cases w <;> simp only [SameOutcome] at h3
    trivial

theorem SameSet.symm {α : Type} {x y : Option (List α)} (h : SameSet x y) : SameSet y x := by
  cases x <;> cases y <;> simp only [SameSet] at h ⊢
  exact h.symm

theorem ReorderedDirective.symm {d e : Raw.Directive} (h : ReorderedDirective d e) : ReorderedDirective e d where
  span := h.span.symm
  date := h.date.symm
  tags := SameSet.symm h.tags
  links := SameSet.symm h.links
  metadata := SameSet.symm h.metadata
  variant := by
    have hv := h.variant
    revert hv
    cases d.variant <;> cases e.variant <;> intro hv <;> try exact Eq.symm hv
    · exact ⟨(hv.1.imp fun p q h =>
        (⟨SameSet.symm h.tags, SameSet.symm h.links, SameSet.symm h.metadata, h.rest.symm⟩ : ReorderedPosting q p)).flip, hv.2.symm⟩
    · exact ⟨SameSet.symm hv.1, hv.2.symm⟩

/-- Directives which agree up to the order of sets and maps. -/
theorem like_of_same {d e : Raw.Directive} (h : ReorderedDirective d e) : DirectiveLike .upToOrder d e where
  date := h.date
  tags := h.tags
  links := h.links
  metadata := h.metadata
  variant := by
    have hv := h.variant
    revert hv
    cases d.variant <;> cases e.variant <;> intro hv <;> try exact hv
    refine ⟨hv.1.imp fun p q h => ⟨h.tags, h.links, h.metadata, ?_⟩, hv.2⟩
    have := h.rest
    simp only [Raw.PostingSpec.mk.injEq] at this ⊢
    exact ⟨trivial, this.2⟩

/-- C58 for the directives which a client sends back as it got them: booking gives the same, up to order. Missing: metadata whose keys are
`dct` or `booking`, which do not come back (`C57_false`). -/
theorem C58_sent_back_partial {L : BookLib} (hL : Blind L) (order order' : AMap Str (Account L) → AMap Str (Account L))
    (hf : ∀ m, (order m).Perm m) (hf' : ∀ m, (order' m).Perm m) (o : BookOptions)
    {ord : List Clj.Data → List Clj.Data} (hs : Clj.IsOrder ord) {ordm : List (Str × Json) → List (Str × Json)} (ho : Clj.IsMapOrder ordm)
    {ds : List Raw.Directive} (hd : ∀ d ∈ ds, DirectiveOk d ∧ DatesOk d ∧ KeysOk d) :
    ∃ (xs : List Clj.Data) (es : List Raw.Directive), ds.map (fun d => Clj.decode ord none (Wire.encDirective d)) = xs.map some ∧
      Json.all Wire.decDirective (xs.map (Clj.toJson ordm)) = some es ∧
      LikeOutcome .upToOrder (book L order o ds) (book L order' o es) := by
  obtain ⟨xs, es, h1, h2, h3⟩ : ∃ (xs : List Clj.Data) (es : List Raw.Directive), ds.map (fun d => Clj.decode ord none (Wire.encDirective d)) = xs.map some ∧
      Json.all Wire.decDirective (xs.map (Clj.toJson ordm)) = some es ∧ List.Forall₂ (DirectiveLike .upToOrder) ds es := by
    induction ds with
    | nil => exact ⟨[], [], rfl, rfl, .nil⟩
    | cons d ds ih =>
      obtain ⟨xs, es, h1, h2, h3⟩ := ih fun d h => hd d (by simp [h])
      obtain ⟨g1, g2, g3⟩ := hd d (by simp)
      obtain ⟨x, d', e1, e2, e3⟩ := C57_partial hs ho g1 g2 g3
      exact ⟨x :: xs, d' :: es, by simp [e1, h1], by simp [Json.all, e2, h2], .cons (like_of_same (ReorderedDirective.symm e3)) h3⟩
  exact ⟨xs, es, h1, h2, C58_attached hL .upToOrder order order' hf hf' o h3⟩

/-! ### The toy library is blind -/

namespace Toy

/-- A posting reduced to what the library sees. -/
def bare (p : Raw.PostingSpec) : Raw.PostingSpec :=
  { acc := p.acc, cur := p.cur, units := p.units, costSpec := p.costSpec, priceSpec := p.priceSpec }

theorem applyAll_bare (b : Booking) (acc : Str) (pos : Pos) (ps : List Raw.PostingSpec) (is : List Interpolated) :
    applyAll b acc pos (ps.map bare) is = applyAll b acc pos ps is := by
  induction ps generalizing pos is with
  | nil => rfl
  | cons p ps ih =>
    cases is with
    | nil => rfl
    | cons i is => simp only [List.map_cons, applyAll, ih]; rfl

theorem bookAll_bare (date : Date) (ps : List Raw.PostingSpec) (t : Tolerance) (inv : Str → Option Pos) (bk : Str → Booking) :
    bookAll date (ps.map bare) t inv bk = bookAll date ps t inv bk := by
  have h1 : complete (ps.map bare) = complete ps := by
    simp only [complete, List.filter_map, List.length_map]
    rfl
  have h2 : residual (ps.map bare) = residual ps := by
    simp only [residual, List.filterMap_map]
    rfl
  have h3 : ∀ r, (ps.map bare).map (interpolate date r) = ps.map (interpolate date r) := by
    intro r
    rw [List.map_map]
    rfl
  have h4 : (ps.map bare).map (fun p => p.acc) = ps.map fun p => p.acc := by
    rw [List.map_map]
    rfl
  simp only [bookAll, h1, h2, h3, h4, applyAll_bare]

theorem lib_blind : Blind lib := by
  intro date ps ps' t inv bk h
  have : ps.map bare = ps'.map bare := by
    have e : bare = (fun x : Str × Option Str × Option Dec × Option Raw.CostSpec × Option Raw.PriceSpec =>
        ({ acc := x.1, cur := x.2.1, units := x.2.2.1, costSpec := x.2.2.2.1, priceSpec := x.2.2.2.2 } : Raw.PostingSpec)) ∘ seenByLibrary := rfl
    rw [e, ← List.map_map, ← List.map_map, h]
  exact (bookAll_bare date ps t inv bk).symm.trans ((congrArg (fun l => bookAll date l t inv bk) this).trans (bookAll_bare date ps' t inv bk))

end Toy

/-- The accepted ledger of the examples with other tags, links, metadata and source locations. -/
def Ex.retagged (d : Raw.Directive) : Raw.Directive :=
  { d with
    span := some ⟨1, 2, 3⟩
    tags := some [str% "new"]
    metadata := some [(str% "k", .number ⟨1, 0⟩)]
    variant := match d.variant with
      | .transaction t => .transaction { t with postings := t.postings.map fun p => { p with links := some [str% "doc"], metadata := none } }
      | v => v }

theorem Ex.retagged_like (d : Raw.Directive) : DirectiveLike .any d (Ex.retagged d) where
  date := rfl
  tags := trivial
  links := trivial
  metadata := trivial
  variant := by
    simp only [Ex.retagged]
    cases d.variant with
    | transaction t =>
      refine ⟨?_, rfl⟩
      simp only [List.forall₂_map_right_iff]
      exact List.forall₂_same.2 fun p _ => ⟨trivial, trivial, trivial, rfl⟩
    | opn o => exact ⟨by cases o.currencies <;> simp [SameSet], rfl⟩
    | _ => rfl

/-- Non-vacuity: the ledger is accepted, and its directives differ from the others. -/
example : LikeOutcome .any (book Toy.lib id {} Ex.ledger) (book Toy.lib List.reverse {} (Ex.ledger.map Ex.retagged)) ∧
    (∃ out w, book Toy.lib id {} Ex.ledger = .success out w ∧ out ≠ []) ∧ Ex.ledger.map Ex.retagged ≠ Ex.ledger := by
  refine ⟨C58_attached Toy.lib_blind .any id List.reverse Ex.fair_id (fun m => List.reverse_perm m) {} ?_, ?_, by decide +kernel⟩
  · simp only [List.forall₂_map_right_iff]
    exact List.forall₂_same.2 fun d _ => Ex.retagged_like d
  · exact ⟨_, _, rfl, by decide +kernel⟩

end Limabean
