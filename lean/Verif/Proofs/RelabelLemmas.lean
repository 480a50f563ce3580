/-
What is remembered of a ledger, with other names for the currencies and other dates.
-/
import Verif.Spec.Relabel
import Verif.Proofs.RenamingLemmas

namespace Limabean

open Spec

variable {L : BookLib} {ρ : Relabel} {R : L.Pos → L.Pos → Prop}

/-- The same is remembered, with the other names. -/
structure Lab (ρ : Relabel) (R : L.Pos → L.Pos → Prop) (s s' : Tally L) : Prop where
  names : s'.names = s.names
  terms : ∀ a, s'.terms a = (s.terms a).map fun t => (t.1, ρ.opening t.2)
  standing : s'.standing = s.standing
  held : ∀ a, Option.Rel R (s.held a) (s'.held a)
  pending : s'.pending = s.pending

variable {s s' : Tally L}

theorem Lab.account (h : Lab ρ R s s') (a : Str) : s'.account a = s.account a := by
  unfold Tally.account
  rw [h.standing]

theorem Lab.usage (hi : Function.Injective ρ.cur) (h : Lab ρ R s s') (a cur : Str) : s'.usage a (ρ.cur cur) = s.usage a cur := by
  unfold Tally.usage
  rw [h.account, h.terms]
  cases s.account a with
  | some f => rfl
  | none =>
    cases s.terms a with
    | none => rfl
    | some t =>
      obtain ⟨n, o⟩ := t
      simp only [Option.map_some, Relabel.opening]
      cases o.currencies with
      | none => rfl
      | some l => simp [hi.eq_iff]

theorem Lab.method (h : Lab ρ R s s') (option : Option Booking) : s'.method option = s.method option := by
  funext a
  unfold Tally.method
  rw [h.terms]
  cases s.terms a <;> rfl

theorem Lab.units (hR : Relabels ρ L R) (h : Lab ρ R s s') (a cur : Str) :
    L.units ((s'.held a).getD L.empty) (ρ.cur cur) = L.units ((s.held a).getD L.empty) cur := by
  have := h.held a
  generalize s.held a = x at this
  generalize s'.held a = y at this
  cases this with
  | none => exact hR.units _ _ _ hR.empty
  | some h => exact hR.units _ _ _ h

theorem Lab.total (hR : Relabels ρ L R) (h : Lab ρ R s s') (a cur : Str) : s'.total a (ρ.cur cur) = s.total a cur := by
  unfold Tally.total
  rw [h.names]
  congr 1
  exact List.map_congr_left fun b _ => h.units hR b cur

theorem Lab.wrongPosting (hi : Function.Injective ρ.cur) (h : Lab ρ R s s') (i : Nat) (is : List Interpolated) (ps : List Raw.PostingSpec) :
    s'.wrongPosting i ((is.map ρ.interpolated).zip (ps.map ρ.posting)) = s.wrongPosting i (is.zip ps) := by
  induction ps generalizing i is with
  | nil => simp [Tally.wrongPosting]
  | cons p ps ih =>
    cases is with
    | nil => rfl
    | cons ip is =>
      simp only [List.map_cons, List.zip_cons_cons, Tally.wrongPosting, Relabel.posting, Relabel.interpolated, h.usage hi]
      rw [← ih]

/-- New holdings. -/
theorem foldl_relabelled {V : Type} {R : V → V → Prop} {us us' l : List (Str × V)} {h h' : Str → Option V}
    (hn : (us.map Prod.fst).Nodup) (hp : us'.Perm l) (hl : List.Forall₂ (fun u v => v.1 = u.1 ∧ R u.2 v.2) us l)
    (hh : ∀ a, Option.Rel R (h a) (h' a)) (a : Str) :
    Option.Rel R (us.foldl (fun (h : Str → Option V) aq => Function.update h aq.1 (some aq.2)) h a)
      (us'.foldl (fun (h : Str → Option V) aq => Function.update h aq.1 (some aq.2)) h' a) := by
  have keys : l.map Prod.fst = us.map Prod.fst := by
    clear hp hn hh
    induction hl with
    | nil => rfl
    | cons x _ ih => simp only [List.map_cons, x.1, ih]
  have hn' : (us'.map Prod.fst).Nodup := by rw [(hp.map Prod.fst).nodup_iff, keys]; exact hn
  by_cases ha : ∃ v, (a, v) ∈ us
  · obtain ⟨v, hv⟩ := ha
    obtain ⟨i, hi⟩ := List.mem_iff_getElem?.1 hv
    have : ∃ w, l[i]? = some w ∧ w.1 = a ∧ R v w.2 := by
      clear hp hh hn hn' keys hv
      induction hl generalizing i with
      | nil => simp at hi
      | cons x _ ih =>
        cases i with
        | zero => simp at hi; subst hi; exact ⟨_, rfl, x⟩
        | succ i => simpa using ih i (by simpa using hi)
    obtain ⟨⟨b, w⟩, h1, rfl, h2⟩ := this
    rw [foldl_update_eq us h hn hv, foldl_update_eq us' h' hn' (hp.mem_iff.2 (List.mem_of_getElem? h1))]
    exact .some h2
  · rw [foldl_update_of_not us h, foldl_update_of_not us' h']
    · exact hh a
    · intro w hw e
      have : a ∈ l.map Prod.fst := List.mem_map.2 ⟨w, hp.mem_iff.1 hw, e⟩
      rw [keys] at this
      obtain ⟨u, hu, e'⟩ := List.mem_map.1 this
      exact ha ⟨u.2, by rw [← e']; exact hu⟩
    · intro w hw e
      exact ha ⟨w.2, by rw [← e]; exact hw⟩

/-- The outcome of a directive, and that with the other names. -/
inductive LabStep (ρ : Relabel) (R : L.Pos → L.Pos → Prop) :
    Option (Tally L × List Finding) → Option (Tally L × List Finding) → Prop
  | crash : LabStep ρ R none none
  | fine {t t' fs fs'} : Lab ρ R t t' → List.Forall₂ (RelabelledFinding ρ) fs fs' → LabStep ρ R (some (t, fs)) (some (t', fs'))

theorem Lab.setHeld (h : Lab ρ R s s') (x : Str) {v v' : Option L.Pos} (hv : Option.Rel R v v') (a : Str) :
    Option.Rel R (Function.update s.held x v a) (Function.update s'.held x v' a) := by
  by_cases hx : a = x
  · subst hx; simpa using hv
  · simpa [Function.update_of_ne hx] using h.held a

theorem Lab.setPending (h : Lab ρ R s s') (x : Str) (p : Option (Nat × Str)) :
    Lab ρ R { s with pending := Function.update s.pending x p } { s' with pending := Function.update s'.pending x p } :=
  ⟨h.names, h.terms, h.standing, h.held, by simp only [h.pending]⟩

theorem Lab.setStanding (h : Lab ρ R s s') (x : Str) (v : Standing) :
    Lab ρ R { s with standing := Function.update s.standing x v } { s' with standing := Function.update s'.standing x v } :=
  ⟨h.names, h.terms, by simp only [h.standing], h.held, h.pending⟩

theorem Lab.change (hR : Relabels ρ L R) (h : Lab ρ R s s') (x : Str) (units : Dec) (cur : Str) :
    Lab ρ R (s.change x units cur) (s'.change x units (ρ.cur cur)) := by
  refine ⟨h.names, h.terms, h.standing, fun a => ?_, h.pending⟩
  refine h.setHeld x ?_ a
  have := h.held x
  generalize s.held x = y at this
  generalize s'.held x = y' at this
  cases this with
  | none => exact .none
  | some h => exact .some (hR.accumulate _ _ _ _ _ h)

theorem labelled_found (n : Nat) (i : Option Nat) {x : Fault} (h : ∀ u c, x ≠ .gap u c) :
    List.Forall₂ (RelabelledFinding ρ) [{ directive := n, posting := i, fault := x }] [{ directive := n, posting := i, fault := x }] :=
  .cons ⟨rfl, rfl, .same _ h⟩ .nil

theorem account_fault {s : Tally L} {a : Str} {x : Fault} (h : s.account a = some x) : ∀ u c, x ≠ .gap u c := by
  unfold Tally.account at h
  split at h <;> cases h <;> simp

theorem usage_fault {s : Tally L} {a cur : Str} {x : Fault} (h : s.usage a cur = some x) : ∀ u c, x ≠ .gap u c := by
  unfold Tally.usage at h
  split at h
  · cases h
    exact account_fault ‹_›
  · split at h
    · cases h
    · cases h; simp
  · cases h

theorem wrongPosting_fault {s : Tally L} {i j : Nat} {zs : List (Interpolated × Raw.PostingSpec)} {x : Fault}
    (h : s.wrongPosting i zs = some (j, x)) : ∀ u c, x ≠ .gap u c := by
  induction zs generalizing i with
  | nil => cases h
  | cons z zs ih =>
    obtain ⟨ip, p⟩ := z
    unfold Tally.wrongPosting at h
    split at h
    · cases h
      exact usage_fault ‹_›
    · exact ih h

theorem Lab.step (hL : L.Lawful) (hi : Function.Injective ρ.cur) (hR : Relabels ρ L R) {option : Option Booking} {tol : Tolerance}
    (h : Lab ρ R s s') (n : Nat) (d : Raw.Directive) :
    LabStep ρ R (s.step option tol n d) (s'.step option (ρ.tolerance tol) n (ρ.directive d)) := by
  obtain ⟨span, date, tags, links, metadata, v⟩ := d
  have same : LabStep ρ R (some (s, [])) (some (s', [])) := .fine h .nil
  have unch : ∀ {x}, (∀ u c, x ≠ Fault.gap u c) → LabStep ρ R (s.unchanged n x) (s'.unchanged n x) := fun hx => .fine h (labelled_found n _ hx)
  cases v with
  | opn o =>
    simp only [Tally.step, Relabel.directive, h.standing, show (ρ.opening o).acc = o.acc from rfl]
    cases s.standing o.acc with
    | unknown =>
      refine .fine ⟨by simp [h.names], ?_, rfl, h.setHeld _ (.some hR.empty), h.pending⟩ .nil
      intro a
      by_cases hx : a = o.acc
      · subst hx; simp
      · simpa [Function.update_of_ne hx] using h.terms a
    | opn k => exact unch (by simp)
    | reopened k j => exact unch (by simp)
    | closed k => exact .fine (by simpa only [h.standing] using h.setStanding o.acc (.reopened n k)) (labelled_found n _ (by simp))
  | close c =>
    simp only [Tally.step, Relabel.directive, h.standing]
    cases s.standing c.acc with
    | unknown => exact unch (by simp)
    | opn k => exact .fine (by simpa only [h.standing] using h.setStanding c.acc (.closed n)) .nil
    | reopened k j => exact unch (by simp)
    | closed k => exact unch (by simp)
  | transaction t =>
    have hlib := hR.book date t.postings tol s.held s'.held (s.method option) h.held
    simp only [Tally.step, Relabel.directive, h.method]
    cases hr : L.book date t.postings tol s.held (s.method option) with
    | error e =>
      cases hr' : L.book (ρ.date date) (t.postings.map ρ.posting) (ρ.tolerance tol) s'.held (s.method option) with
      | error e' =>
        rw [hr, hr'] at hlib
        exact .fine h (.cons ⟨rfl, rfl, .refused hlib⟩ .nil)
      | ok r' => rw [hr, hr'] at hlib; exact hlib.elim
    | ok r =>
      cases hr' : L.book (ρ.date date) (t.postings.map ρ.posting) (ρ.tolerance tol) s'.held (s.method option) with
      | error e' => rw [hr, hr'] at hlib; exact hlib.elim
      | ok r' =>
        rw [hr, hr'] at hlib
        obtain ⟨h1, l, h2, h3⟩ := hlib
        simp only [h1, h.wrongPosting hi]
        cases hw : s.wrongPosting 0 (r.interpolated.zip t.postings) with
        | some z => exact .fine h (labelled_found _ _ (wrongPosting_fault hw))
        | none =>
          exact .fine ⟨h.names, h.terms, h.standing, foldl_relabelled (hL.book_nodup _ _ _ _ _ _ hr) h2 h3 h.held, h.pending⟩ .nil
  | balance b =>
    simp only [Tally.step, Relabel.directive, h.usage hi, h.total hR, h.pending]
    cases hu : s.usage b.acc b.cur with
    | some x => exact unch (usage_fault hu)
    | none =>
      simp only [toleranceDec, Relabel.tolerance]
      cases (Dec.abs (b.units.sub (s.total b.acc b.cur))).gt _ with
      | false =>
        cases s.pending b.acc with
        | none => exact same
        | some p => exact .fine (by simpa only [h.pending] using h.setPending b.acc none) (labelled_found _ _ (by simp))
      | true =>
        cases hp : s.pending b.acc with
        | none => exact .fine (h.change hR _ _ _) (.cons ⟨rfl, rfl, .gap _ _⟩ .nil)
        | some p =>
          obtain ⟨k, src⟩ := p
          simp only [h.names]
          by_cases hm : src ∈ s.names
          · rw [if_pos hm, if_pos hm]
            refine .fine ?_ .nil
            have := ((h.setPending b.acc none).change hR b.acc (b.units.sub (s.total b.acc b.cur)) b.cur).change hR src
              (b.units.sub (s.total b.acc b.cur)).neg b.cur
            simpa only [h.pending, h.names] using this
          · rw [if_neg hm, if_neg hm]
            exact .crash
  | pad p =>
    simp only [Tally.step, Relabel.directive, h.account, h.pending]
    cases ha : s.account p.acc with
    | some x => exact unch (account_fault ha)
    | none =>
      cases s.pending p.acc with
      | some q => exact .fine (by simpa only [h.pending] using h.setPending p.acc none) (labelled_found _ _ (by simp))
      | none => exact .fine (by simpa only [h.pending] using h.setPending p.acc (some (n, p.source))) .nil
  | price _ => exact same
  | commodity _ => exact same
  | document _ => exact same
  | note _ => exact same
  | event _ => exact same
  | query _ => exact same
  | custom _ => exact same

theorem Lab.run (hL : L.Lawful) (hi : Function.Injective ρ.cur) (hR : Relabels ρ L R) {option : Option Booking} {tol : Tolerance}
    (ds : List Raw.Directive) (n : Nat) {s s' : Tally L} (h : Lab ρ R s s') :
    LabStep ρ R (Tally.run option tol n s ds) (Tally.run option (ρ.tolerance tol) n s' (ds.map ρ.directive)) := by
  induction ds generalizing n s s' with
  | nil => exact .fine h .nil
  | cons d ds ih =>
    have h1 := h.step hL hi hR (option := option) (tol := tol) n d
    simp only [List.map_cons, Tally.run]
    generalize s.step option tol n d = r at h1
    generalize s'.step option (ρ.tolerance tol) n (ρ.directive d) = r' at h1
    cases h1 with
    | crash => exact .crash
    | fine ht hfs =>
      have h2 := ih (n + 1) ht
      simp only
      generalize Tally.run option tol (n + 1) _ ds = q at h2
      generalize Tally.run option (ρ.tolerance tol) (n + 1) _ (ds.map ρ.directive) = q' at h2
      cases h2 with
      | crash => exact .crash
      | fine ht' hfs' => exact .fine ht' (List.rel_append hfs hfs')

/-- The directives written. -/
theorem Lab.emits (hR : Relabels ρ L R) {option : Option Booking} {tol : Tolerance} (h : Lab ρ R s s') (n : Nat) (d : Raw.Directive) :
    s'.emits option (ρ.tolerance tol) n (ρ.directive d) = (s.emits option tol n d).map ρ.booked := by
  obtain ⟨span, date, tags, links, metadata, v⟩ := d
  cases v with
  | transaction t =>
    have hlib := hR.book date t.postings tol s.held s'.held (s.method option) h.held
    simp only [Tally.emits, Tally.variants, Relabel.directive, h.method]
    cases hr : L.book date t.postings tol s.held (s.method option) with
    | error e =>
      cases hr' : L.book (ρ.date date) (t.postings.map ρ.posting) (ρ.tolerance tol) s'.held (s.method option) with
      | error e' => rfl
      | ok r' => rw [hr, hr'] at hlib; exact hlib.elim
    | ok r =>
      cases hr' : L.book (ρ.date date) (t.postings.map ρ.posting) (ρ.tolerance tol) s'.held (s.method option) with
      | error e' => rw [hr, hr'] at hlib; exact hlib.elim
      | ok r' =>
        rw [hr, hr'] at hlib
        simp only [hlib.1, List.map_cons, List.map_nil, Relabel.booked, List.cons.injEq, and_true, Booked.Directive.mk.injEq,
          Booked.Variant.transaction.injEq, Booked.Transaction.mk.injEq, true_and]
        simp only [postingsFor, List.zip_map, List.zipIdx_map, List.flatMap_map, List.map_flatMap]
        congr 1
        funext z
        simp only [lotPostings, Prod.map, id, Relabel.interpolated, Relabel.posting]
        cases z.1.1.cost with
        | none => rfl
        | some ls => simp [Relabel.bookedPosting, Relabel.lot, Relabel.cost]
  | _ => rfl

/-- The pads filled. -/
theorem Lab.fills (hR : Relabels ρ L R) {tol : Tolerance} (h : Lab ρ R s s') (d : Raw.Directive) :
    s'.fills (ρ.tolerance tol) (ρ.directive d) = (s.fills tol d).map fun z => (z.1, z.2.map ρ.bookedPosting) := by
  obtain ⟨span, date, tags, links, metadata, v⟩ := d
  cases v with
  | balance b =>
    simp only [Tally.fills, Relabel.directive, h.total hR, h.pending, toleranceDec, Relabel.tolerance]
    cases (Dec.abs (b.units.sub (s.total b.acc b.cur))).gt _ with
    | false => cases s.pending b.acc <;> rfl
    | true => cases s.pending b.acc <;> rfl
  | _ => rfl

theorem Lab.history (hL : L.Lawful) (hi : Function.Injective ρ.cur) (hR : Relabels ρ L R) {option : Option Booking} {tol : Tolerance}
    (ds : List Raw.Directive) (n : Nat) {s s' : Tally L} (h : Lab ρ R s s') :
    ((Tally.history option (ρ.tolerance tol) n s' (ds.map ρ.directive)).flatMap fun x => x.1.emits option (ρ.tolerance tol) x.2.1 x.2.2) =
      ((Tally.history option tol n s ds).flatMap fun x => x.1.emits option tol x.2.1 x.2.2).map ρ.booked ∧
    ((Tally.history option (ρ.tolerance tol) n s' (ds.map ρ.directive)).filterMap fun x => x.1.fills (ρ.tolerance tol) x.2.2) =
      ((Tally.history option tol n s ds).filterMap fun x => x.1.fills tol x.2.2).map fun z => (z.1, z.2.map ρ.bookedPosting) := by
  induction ds generalizing n s s' with
  | nil => exact ⟨rfl, rfl⟩
  | cons d ds ih =>
    have h1 := h.step hL hi hR (option := option) (tol := tol) n d
    have h2 := h.emits hR (option := option) (tol := tol) n d
    have h3 := h.fills hR (tol := tol) d
    have key : ∀ (X X' : List (Tally L × Nat × Raw.Directive)),
        (X'.flatMap fun x => x.1.emits option (ρ.tolerance tol) x.2.1 x.2.2) = (X.flatMap fun x => x.1.emits option tol x.2.1 x.2.2).map ρ.booked ∧
        (X'.filterMap fun x => x.1.fills (ρ.tolerance tol) x.2.2) =
          (X.filterMap fun x => x.1.fills tol x.2.2).map (fun z => (z.1, z.2.map ρ.bookedPosting)) →
        (((s', n, ρ.directive d) :: X').flatMap fun x => x.1.emits option (ρ.tolerance tol) x.2.1 x.2.2) =
          (((s, n, d) :: X).flatMap fun x => x.1.emits option tol x.2.1 x.2.2).map ρ.booked ∧
        (((s', n, ρ.directive d) :: X').filterMap fun x => x.1.fills (ρ.tolerance tol) x.2.2) =
          (((s, n, d) :: X).filterMap fun x => x.1.fills tol x.2.2).map fun z => (z.1, z.2.map ρ.bookedPosting) := by
      rintro X X' ⟨e1, e2⟩
      refine ⟨by simp only [List.flatMap_cons, List.map_append, h2, e1], ?_⟩
      simp only [List.filterMap_cons, h3]
      cases s.fills tol d with
      | none => exact e2
      | some z => simp only [Option.map_some, List.map_cons, e2]
    simp only [List.map_cons, Tally.history]
    apply key
    generalize s.step option tol n d = r at h1
    generalize s'.step option (ρ.tolerance tol) n (ρ.directive d) = r' at h1
    cases h1 with
    | crash => exact ⟨rfl, rfl⟩
    | fine ht hfs => exact ih (n + 1) ht

theorem fillIn_relabelled (F : List (Nat × List Booked.Posting)) (d : Booked.Directive) :
    fillIn (F.map fun z => (z.1, z.2.map ρ.bookedPosting)) (ρ.booked d) = ρ.booked (fillIn F d) := by
  obtain ⟨idx, date, tags, links, metadata, v⟩ := d
  have : ((F.map fun z => (z.1, z.2.map ρ.bookedPosting)).find? fun z => z.1 = idx) =
      (F.find? fun z => z.1 = idx).map fun z => (z.1, z.2.map ρ.bookedPosting) := by
    rw [List.find?_map]; rfl
  cases v with
  | transaction t =>
    unfold fillIn Relabel.booked
    dsimp only
    rw [this]
    cases F.find? fun z => z.1 = idx <;> rfl
  | _ => rfl

theorem Lab.init : Lab ρ R (Tally.init L) (Tally.init L) := ⟨rfl, fun _ => rfl, rfl, fun _ => .none, rfl⟩

theorem Lab.unbalanced (h : Lab ρ R s s') : s'.unbalanced = s.unbalanced := by
  unfold Tally.unbalanced
  rw [h.names, h.pending]

/-- The audit with the other names. -/
theorem relabelled_audit (hL : L.Lawful) (hi : Function.Injective ρ.cur) (hR : Relabels ρ L R) (option : Option Booking) (tol : Tolerance)
    (ds : List Raw.Directive) :
    (audit L option tol ds = none ∧ audit L option (ρ.tolerance tol) (ds.map ρ.directive) = none) ∨
    ∃ fs fs' ps, audit L option tol ds = some (fs, ps) ∧ audit L option (ρ.tolerance tol) (ds.map ρ.directive) = some (fs', ps) ∧
      List.Forall₂ (RelabelledFinding ρ) fs fs' := by
  have h := Lab.run hL hi hR (option := option) (tol := tol) ds 0 (Lab.init (L := L))
  unfold audit
  generalize Tally.run option tol 0 (Tally.init L) ds = r at h
  generalize Tally.run option (ρ.tolerance tol) 0 (Tally.init L) (ds.map ρ.directive) = r' at h
  cases h with
  | crash => exact .inl ⟨rfl, rfl⟩
  | fine ht hfs => exact .inr ⟨_, _, _, rfl, by simp only [Option.map_some, ht.unbalanced], hfs⟩

theorem relabelled_returned (hL : L.Lawful) (hi : Function.Injective ρ.cur) (hR : Relabels ρ L R) (option : Option Booking) (tol : Tolerance)
    (ds : List Raw.Directive) :
    returned L option (ρ.tolerance tol) (ds.map ρ.directive) = (returned L option tol ds).map ρ.booked := by
  obtain ⟨h1, h2⟩ := Lab.history hL hi hR (option := option) (tol := tol) ds 0 (Lab.init (L := L))
  unfold returned returnedOf
  rw [h1, h2, List.map_map, List.map_map]
  apply List.map_congr_left
  intro d _
  exact fillIn_relabelled _ d

theorem relabelled_warned (ρ : Relabel) (ds : List Raw.Directive) : warned L (ds.map ρ.directive) = warned L ds := by
  unfold warned
  rw [List.zipIdx_map, List.flatMap_map]
  congr 1
  funext z
  obtain ⟨⟨span, date, tags, links, metadata, v⟩, n⟩ := z
  cases v <;> rfl

end Limabean
