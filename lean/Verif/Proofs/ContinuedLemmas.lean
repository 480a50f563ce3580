/-
Booking what follows one ledger or another which leaves the accounts alike.
-/
import Verif.Proofs.RelaxedLemmas
import Verif.Proofs.RenamingLemmas
import Verif.Spec.Continued

namespace Limabean

open Spec

variable {L : BookLib}

/-! ### Totals -/

/-- What an account holds of a currency. -/
def unitsOf (s : Tally L) (a cur : Str) : ℚ := (L.units ((s.held a).getD L.empty) cur).val

/-- What is added to accounts which are there is added to the totals of the accounts above. -/
theorem total_added {s t : Tally L} (hk : s.names.Nodup) (hn : t.names = s.names) {cur : Str} (l : List (Str × ℚ))
    (hl : ∀ x ∈ l, x.1 ∈ s.names)
    (hu : ∀ a ∈ s.names, unitsOf t a cur = unitsOf s a cur + (l.map fun x => if x.1 = a then x.2 else 0).sum) (acc : Str) :
    (t.total acc cur).val = (s.total acc cur).val + (l.map fun x => if Below acc x.1 then x.2 else 0).sum := by
  have h1 : ∀ (l : List (Str × ℚ)) (ns : List Str), ns.Nodup → (∀ x ∈ l, Below acc x.1 → x.1 ∈ ns) → (∀ a ∈ ns, Below acc a) →
      (ns.map fun a => (l.map fun x => if x.1 = a then x.2 else 0).sum).sum = (l.map fun x => if Below acc x.1 then x.2 else 0).sum := by
    intro l ns hns hl hb
    induction l with
    | nil => simp
    | cons x l ih =>
      have hi := ih fun y hy => hl y (List.mem_cons_of_mem _ hy)
      simp only [List.map_cons, List.sum_cons]
      rw [List.sum_map_add, hi]
      congr 1
      have h2 : ∀ ns : List Str, ns.Nodup → (ns.map fun a => if x.1 = a then x.2 else 0).sum = if x.1 ∈ ns then x.2 else 0 := by
        intro ns
        induction ns with
        | nil => simp
        | cons a ns ih2 =>
          intro hn
          have hn := List.nodup_cons.1 hn
          rw [List.map_cons, List.sum_cons, ih2 hn.2]
          by_cases he : x.1 = a
          · subst he; simp [hn.1]
          · simp [he]
      rw [h2 ns hns]
      have := hl x (List.mem_cons_self ..)
      by_cases hbx : Below acc x.1
      · rw [if_pos (this hbx), if_pos hbx]
      · rw [if_neg hbx, if_neg fun hm => hbx (hb _ hm)]
  have h3 := h1 l (s.names.filter fun a => decide (Below acc a)) (hk.filter _)
    (fun x hx hb => List.mem_filter.2 ⟨hl x hx, decide_eq_true hb⟩) (fun a ha => by simpa using (List.mem_filter.1 ha).2)
  rw [← h3]
  unfold Tally.total
  rw [Dec.val_sum, Dec.val_sum, hn, List.map_map, List.map_map, ← List.sum_map_add]
  refine congrArg List.sum (List.map_congr_left fun a ha => ?_)
  exact hu a (List.mem_filter.1 ha).1

/-- An account which is opened holds nothing. -/
theorem total_opened (hL : L.Lawful) {s t : Tally L} {a : Str} (hn : t.names = s.names ++ [a])
    (hu : ∀ x ∈ s.names, t.held x = s.held x) (ha : t.held a = some L.empty) (acc cur : Str) :
    (t.total acc cur).val = (s.total acc cur).val := by
  unfold Tally.total
  rw [Dec.val_sum, Dec.val_sum, hn, List.filter_append, List.map_append, List.map_append, List.sum_append]
  have h1 : ((s.names.filter fun a => decide (Below acc a)).map fun a => L.units ((t.held a).getD L.empty) cur) =
      (s.names.filter fun a => decide (Below acc a)).map fun a => L.units ((s.held a).getD L.empty) cur :=
    List.map_congr_left fun x hx => by rw [hu x (List.mem_filter.1 hx).1]
  rw [h1]
  by_cases hb : Below acc a
  · simp [hb, ha, hL.units_empty]
  · simp [hb]

/-- The change of an account by a transaction, posting by posting. -/
theorem postingsChange_zip (a cur : Str) : ∀ (ps : List Raw.PostingSpec) (is : List Interpolated),
    postingsChange a cur ps is =
      (((ps.zip is).map fun z => (z.1.acc, if z.2.currency = cur then z.2.lotUnits else 0)).map fun x => if x.1 = a then x.2 else 0).sum
  | [], _ => by simp [postingsChange]
  | _ :: _, [] => by simp [postingsChange]
  | p :: ps, i :: is => by
    rw [postingsChange, postingsChange_zip a cur ps is]
    simp only [List.zip_cons_cons, List.map_cons, List.sum_cons]
    congr 1
    by_cases h : p.acc = a <;> simp [h]

/-- What an account holds after a transaction. -/
theorem unitsOf_booked (hL : L.Lawful) {s : Tally L} {date : Date} {ps : List Raw.PostingSpec} {tol : Tolerance} {m : Str → Booking}
    {r : Bookings L.Pos} (hb : L.book date ps tol s.held m = .ok r) (a cur : Str) :
    unitsOf { s with held := heldAfter s.held r.updated } a cur = unitsOf s a cur + postingsChange a cur ps r.interpolated := by
  unfold unitsOf heldAfter
  simp only
  by_cases h : ∃ q, (a, q) ∈ r.updated
  · obtain ⟨q, hq⟩ := h
    rw [foldl_update_eq _ _ (hL.book_nodup _ _ _ _ _ _ hb) hq]
    exact hL.book_updated _ _ _ _ _ _ hb a q hq cur
  · rw [foldl_update_of_not _ _ (fun u hu e => h ⟨u.2, by rw [← e]; exact hu⟩),
      hL.book_not_updated _ _ _ _ _ _ hb a (fun q hq => h ⟨q, hq⟩) cur, add_zero]

/-- What a change of holdings adds. -/
theorem unitsOf_change (hL : L.Lawful) {s : Tally L} {x : Str} (hx : (s.held x).isSome) (u : Dec) (c a cur : Str) :
    unitsOf (s.change x u c) a cur = unitsOf s a cur + if x = a then (if cur = c then u.val else 0) else 0 := by
  unfold unitsOf Tally.change
  simp only
  by_cases h : x = a
  · subst h
    obtain ⟨p, hp⟩ := Option.isSome_iff_exists.1 hx
    simp [hp, hL.units_accumulate]
  · simp [Function.update_of_ne (fun e => h e.symm), h]

theorem total_changed (hL : L.Lawful) {s : Tally L} (hk : Kept s) {x : Str} (hx : x ∈ s.names) (u : Dec) (c acc cur : Str) :
    ((s.change x u c).total acc cur).val = (s.total acc cur).val + if Below acc x then (if cur = c then u.val else 0) else 0 := by
  have := total_added (t := s.change x u c) (cur := cur) hk.nodup rfl [(x, if cur = c then u.val else 0)] (by simpa using hx)
    (fun a _ => by rw [unitsOf_change hL (hk.held x hx)]; simp) acc
  simpa using this

/-! ### What is alike -/

/-- The same fault. -/
inductive SameFault (n n' : Nat) : Fault → Fault → Prop
  | notOpen : SameFault n n' .notOpen .notOpen
  | closed {k k'} : Match n n' k k' → SameFault n n' (.closed k) (.closed k')
  | alreadyOpen {k k'} : Match n n' k k' → SameFault n n' (.alreadyOpen k) (.alreadyOpen k')
  | alreadyClosed {k k'} : Match n n' k k' → SameFault n n' (.alreadyClosed k) (.alreadyClosed k')
  | currency {k k'} : Match n n' k k' → SameFault n n' (.currency k) (.currency k')
  | refused (e) : SameFault n n' (.refused e) (.refused e)
  | gap {u u'} (c) : u'.val = u.val → SameFault n n' (.gap u c) (.gap u' c)
  | padUnneeded : SameFault n n' .padUnneeded .padUnneeded
  | padSuperseded {k k'} : Match n n' k k' → SameFault n n' (.padSuperseded k) (.padSuperseded k')
  | padUnbalanced : SameFault n n' .padUnbalanced .padUnbalanced

/-- The same finding. -/
structure SameFinding (n n' : Nat) (f f' : Finding) : Prop where
  directive : ∃ i, f.directive = n + i ∧ f'.directive = n' + i
  posting : f'.posting = f.posting
  fault : SameFault n n' f.fault f'.fault

/-- An account stands alike. -/
inductive StandsAlike (n n' : Nat) : Standing → Standing → Prop
  | unknown : StandsAlike n n' .unknown .unknown
  | opn {k k'} : Match n n' k k' → StandsAlike n n' (.opn k) (.opn k')
  | closed {k k'} : Match n n' k k' → StandsAlike n n' (.closed k) (.closed k')
  | reopened {k k' j j'} : Match n n' k k' → Match n n' j j' → StandsAlike n n' (.reopened k j) (.reopened k' j')

/-- An account was opened alike. -/
inductive TermsAlike (n n' : Nat) : Option (Nat × Raw.Open) → Option (Nat × Raw.Open) → Prop
  | none : TermsAlike n n' none none
  | some {k k' o o'} : Match n n' k k' → o'.currencies.getD [] = o.currencies.getD [] → o'.booking = o.booking →
      TermsAlike n n' (some (k, o)) (some (k', o'))

/-- The same pad is pending. -/
def PendsAlike (n n' : Nat) (A : Str → Prop) (x y : Nat × Str) : Prop := (∃ i, x.1 = n + i ∧ y.1 = n' + i) ∧ y.2 = x.2 ∧ A x.2

/-- The same is remembered of an account. -/
structure BothAt (n n' : Nat) (A : Str → Prop) (alike : L.Pos → L.Pos → Prop) (s s' : Tally L) (a : Str) : Prop where
  standing : StandsAlike n n' (s.standing a) (s'.standing a)
  terms : TermsAlike n n' (s.terms a) (s'.terms a)
  held : Option.Rel alike (s.held a) (s'.held a)
  pending : Option.Rel (PendsAlike n n' A) (s.pending a) (s'.pending a)

/-- The same is remembered of the accounts `A`. -/
structure Cont (n n' : Nat) (A : Str → Prop) (alike : L.Pos → L.Pos → Prop) (s s' : Tally L) : Prop where
  at_ : ∀ a, A a → BothAt n n' A alike s s' a
  kept : Kept s
  kept' : Kept s'
  other : ∀ a, ¬ A a → s.pending a = none ∧ s'.pending a = none
  known : ∀ a, (s.pending a).isSome → a ∈ s.names
  known' : ∀ a, (s'.pending a).isSome → a ∈ s'.names

/-- A step is alike: the same findings, and the totals change by the same. -/
inductive AlikeStep (n n' : Nat) (A : Str → Prop) (alike : L.Pos → L.Pos → Prop) (s s' : Tally L) :
    Option (Tally L × List Finding) → Option (Tally L × List Finding) → Prop
  | crash : AlikeStep n n' A alike s s' none none
  | fine {t t' fs fs'} : Cont n n' A alike t t' →
      (∀ acc cur, (t.total acc cur).val - (s.total acc cur).val = (t'.total acc cur).val - (s'.total acc cur).val) →
      List.Forall₂ (SameFinding n n') fs fs' → AlikeStep n n' A alike s s' (some (t, fs)) (some (t', fs'))

section
variable {n n' : Nat} {A : Str → Prop} {alike : L.Pos → L.Pos → Prop} {s s' : Tally L}

theorem BothAt.account {a : Str} (h : BothAt n n' A alike s s' a) : Option.Rel (SameFault n n') (s.account a) (s'.account a) := by
  unfold Tally.account
  have := h.standing
  generalize s.standing a = x at *
  generalize s'.standing a = y at *
  cases this with
  | unknown => exact .some .notOpen
  | opn => exact .none
  | closed hm => exact .some (.closed hm)
  | reopened => exact .none

theorem BothAt.usage {a : Str} (h : BothAt n n' A alike s s' a) (c : Str) : Option.Rel (SameFault n n') (s.usage a c) (s'.usage a c) := by
  unfold Tally.usage
  have h1 := h.account
  have h2 := h.terms
  generalize s.account a = x at *
  generalize s'.account a = y at *
  generalize s.terms a = u at *
  generalize s'.terms a = v at *
  cases h1 with
  | some hf => exact .some hf
  | none =>
    cases h2 with
    | none => exact .none
    | some hm hc hb =>
      simp only [hc]
      split
      · exact .none
      · exact .some (.currency hm)

theorem BothAt.method {a : Str} (h : BothAt n n' A alike s s' a) (option : Option Booking) : s.method option a = s'.method option a := by
  unfold Tally.method
  have h2 := h.terms
  generalize s.terms a = u at *
  generalize s'.terms a = v at *
  cases h2 with
  | none => rfl
  | some hm hc hb => simp only [Spec.method, hb]

theorem BothAt.names {a : Str} (h : BothAt n n' A alike s s' a) (hk : Kept s) (hk' : Kept s') : a ∈ s'.names ↔ a ∈ s.names := by
  rw [hk.known, hk'.known]
  have := h.standing
  generalize s.standing a = x at *
  generalize s'.standing a = y at *
  cases this <;> simp

theorem wrongPosting_alike (i : Nat) (l : List (Interpolated × Raw.PostingSpec)) (h : ∀ z ∈ l, BothAt n n' A alike s s' z.2.acc) :
    Option.Rel (fun x y => y.1 = x.1 ∧ SameFault n n' x.2 y.2) (s.wrongPosting i l) (s'.wrongPosting i l) := by
  induction l generalizing i with
  | nil => exact .none
  | cons z l ih =>
    obtain ⟨ip, p⟩ := z
    simp only [Tally.wrongPosting]
    have hu := (h (ip, p) (List.mem_cons_self ..)).usage ip.currency
    simp only at hu
    generalize s.usage p.acc ip.currency = x at *
    generalize s'.usage p.acc ip.currency = y at *
    cases hu with
    | some hf => exact .some ⟨rfl, hf⟩
    | none => exact ih _ fun z hz => h z (List.mem_cons_of_mem _ hz)

/-- A finding at the directive itself. -/
theorem AlikeStep.unchanged (h : Cont n n' A alike s s') (i : Nat) {f f' : Fault} (hf : SameFault n n' f f') :
    AlikeStep n n' A alike s s' (s.unchanged (n + i) f) (s'.unchanged (n' + i) f') :=
  .fine h (fun _ _ => by rw [sub_self, sub_self]) (.cons ⟨⟨i, rfl, rfl⟩, rfl, hf⟩ .nil)

theorem AlikeStep.same (h : Cont n n' A alike s s') : AlikeStep n n' A alike s s' (some (s, [])) (some (s', [])) :=
  .fine h (fun _ _ => by rw [sub_self, sub_self]) .nil

/-- Equal names and holdings, equal totals. -/
theorem total_same_held {t : Tally L} (h1 : t.names = s.names) (h2 : t.held = s.held) (acc cur : Str) : t.total acc cur = s.total acc cur := by
  unfold Tally.total
  rw [h1, h2]

theorem totals_kept {t t' : Tally L} (h1 : t.names = s.names) (h2 : t.held = s.held) (h3 : t'.names = s'.names) (h4 : t'.held = s'.held) (acc cur : Str) :
    (t.total acc cur).val - (s.total acc cur).val = (t'.total acc cur).val - (s'.total acc cur).val := by
  rw [total_same_held h1 h2, total_same_held h3 h4, sub_self, sub_self]

theorem match_here (n n' i : Nat) : Match n n' (n + i) (n' + i) := .inr ⟨i, rfl, rfl⟩

/-- A change of the standing of an account which is known. -/
theorem Cont.stand (h : Cont n n' A alike s s') {a : Str} {x x' : Standing} (hx : StandsAlike n n' x x') (hu : x ≠ .unknown)
    (hs : s.standing a ≠ .unknown) (hs' : s'.standing a ≠ .unknown) :
    Cont n n' A alike { s with standing := Function.update s.standing a x } { s' with standing := Function.update s'.standing a x' } := by
  have hu' : x' ≠ .unknown := by cases hx <;> simp_all
  refine ⟨fun b hb => ⟨?_, (h.at_ b hb).terms, (h.at_ b hb).held, (h.at_ b hb).pending⟩, h.kept.same rfl (fun b => ?_) fun _ => rfl,
    h.kept'.same rfl (fun b => ?_) fun _ => rfl, h.other, h.known, h.known'⟩
  · by_cases he : b = a
    · subst he; simpa using hx
    · simp only [Function.update_of_ne he]; exact (h.at_ b hb).standing
  · by_cases he : b = a
    · subst he; simp [hu, hs]
    · simp only [Function.update_of_ne he]
  · by_cases he : b = a
    · subst he; simp [hu', hs']
    · simp only [Function.update_of_ne he]

/-- A change of the pending pad of an account. -/
theorem Cont.pend (h : Cont n n' A alike s s') {a : Str} (ha : A a) (hm : a ∈ s.names) (hm' : a ∈ s'.names) {x x' : Option (Nat × Str)}
    (hx : Option.Rel (PendsAlike n n' A) x x') :
    Cont n n' A alike { s with pending := Function.update s.pending a x } { s' with pending := Function.update s'.pending a x' } := by
  refine ⟨fun b hb => ⟨(h.at_ b hb).standing, (h.at_ b hb).terms, (h.at_ b hb).held, ?_⟩, h.kept.same rfl (fun b => Iff.rfl) fun _ => rfl,
    h.kept'.same rfl (fun b => Iff.rfl) fun _ => rfl, fun b hb => ?_, fun b hb => ?_, fun b hb => ?_⟩
  · by_cases he : b = a
    · subst he; simpa using hx
    · simp only [Function.update_of_ne he]; exact (h.at_ b hb).pending
  · have he : b ≠ a := fun e => hb (e ▸ ha)
    simp only [Function.update_of_ne he]
    exact h.other b hb
  · by_cases he : b = a
    · subst he; exact hm
    · simp only [Function.update_of_ne he] at hb; exact h.known b hb
  · by_cases he : b = a
    · subst he; exact hm'
    · simp only [Function.update_of_ne he] at hb; exact h.known' b hb

/-- A change of holdings by the same amount. -/
theorem Cont.change {tol : Tolerance} {rest : List Raw.Directive} (hc : Carries L tol alike rest) (h : Cont n n' A alike s s') (a c : Str) {u u' : Dec}
    (hu : u.val = u'.val) : Cont n n' A alike (s.change a u c) (s'.change a u' c) := by
  refine ⟨fun b hb => ⟨(h.at_ b hb).standing, (h.at_ b hb).terms, ?_, (h.at_ b hb).pending⟩, h.kept.same rfl (fun b => Iff.rfl) fun x => change_isSome ..,
    h.kept'.same rfl (fun b => Iff.rfl) fun x => change_isSome .., h.other, h.known, h.known'⟩
  simp only [Tally.change]
  by_cases he : b = a
  · subst he
    simp only [Function.update_self]
    have := (h.at_ b hb).held
    generalize s.held b = x at *
    generalize s'.held b = y at *
    cases this with
    | none => exact .none
    | some hp => exact .some (hc.accumulate _ _ _ _ _ hp hu)
  · simp only [Function.update_of_ne he]
    exact (h.at_ b hb).held

/-- One directive after both. -/
theorem Cont.step (hL : L.Lawful) {option : Option Booking} {tol : Tolerance} {rest : List Raw.Directive} (hc : Carries L tol alike rest)
    (h : Cont n n' A alike s s') {d : Raw.Directive} (hd : d ∈ rest) (hA : ∀ a ∈ accountsOf d, A a)
    (htot : ∀ b, d.variant = .balance b → (s.total b.acc b.cur).val = (s'.total b.acc b.cur).val) (i : Nat) :
    AlikeStep n n' A alike s s' (s.step option tol (n + i) d) (s'.step option tol (n' + i) d) := by
  unfold Tally.step
  cases hv : d.variant with
  | opn o =>
    simp only
    have hb := h.at_ o.acc (hA _ (by simp [accountsOf, hv]))
    have hs := hb.standing
    generalize hx : s.standing o.acc = x at *
    generalize hy : s'.standing o.acc = y at *
    cases hs with
    | opn hm => exact .unchanged h i (.alreadyOpen hm)
    | reopened hm hm' => exact .unchanged h i (.alreadyOpen hm)
    | closed hm =>
      exact .fine (h.stand (.reopened (match_here n n' i) hm) (by simp) (by simp [hx]) (by simp [hy])) (totals_kept rfl rfl rfl rfl)
        (.cons ⟨⟨i, rfl, rfl⟩, rfl, .closed hm⟩ .nil)
    | unknown =>
      have hn : o.acc ∉ s.names := fun hm => (h.kept.known _).1 hm hx
      have hn' : o.acc ∉ s'.names := fun hm => (h.kept'.known _).1 hm hy
      have kept : ∀ (s : Tally L) (m : Nat), Kept s → s.standing o.acc = .unknown → Kept { s with
          names := s.names ++ [o.acc]
          terms := Function.update s.terms o.acc (some (m, o))
          standing := Function.update s.standing o.acc (.opn m)
          held := Function.update s.held o.acc (some L.empty) } := by
        intro s m hk hu
        have := hk.step hL (option := none) (tol := {}) (n := m) (d := { d with variant := .opn o }) (by simp only [Tally.step, hu]; rfl)
        exact this
      refine .fine ⟨fun a ha => ?_, kept s _ h.kept hx, kept s' _ h.kept' hy, h.other, fun a ha => List.mem_append_left _ (h.known a ha),
        fun a ha => List.mem_append_left _ (h.known' a ha)⟩ (fun acc cur => ?_) .nil
      · by_cases he : a = o.acc
        · subst he
          refine ⟨?_, ?_, ?_, hb.pending⟩ <;> simp only [Function.update_self]
          · exact .opn (match_here n n' i)
          · exact .some (match_here n n' i) rfl rfl
          · exact .some hc.empty
        · have := h.at_ a ha
          refine ⟨?_, ?_, ?_, this.pending⟩ <;> simp only [Function.update_of_ne he]
          · exact this.standing
          · exact this.terms
          · exact this.held
      · have opened : ∀ (s : Tally L) (m : Nat), o.acc ∉ s.names → (Tally.total { s with
            names := s.names ++ [o.acc]
            terms := Function.update s.terms o.acc (some (m, o))
            standing := Function.update s.standing o.acc (.opn m)
            held := Function.update s.held o.acc (some L.empty) } acc cur).val = (s.total acc cur).val := fun s m hn =>
          total_opened hL (a := o.acc) rfl (fun x hm => Function.update_of_ne (fun (e : x = o.acc) => hn (e ▸ hm)) _ _) (Function.update_self ..) acc cur
        rw [opened s _ hn, opened s' _ hn', sub_self, sub_self]
  | close c =>
    simp only
    have hb := h.at_ c.acc (hA _ (by simp [accountsOf, hv]))
    have hs := hb.standing
    generalize hx : s.standing c.acc = x at *
    generalize hy : s'.standing c.acc = y at *
    cases hs with
    | opn hm =>
      exact .fine (h.stand (.closed (match_here n n' i)) (by simp) (by simp [hx]) (by simp [hy])) (totals_kept rfl rfl rfl rfl) .nil
    | reopened hm hm' => exact .unchanged h i (.alreadyClosed hm')
    | closed hm => exact .unchanged h i .notOpen
    | unknown => exact .unchanged h i .notOpen
  | transaction t =>
    simp only
    have hp : ∀ p ∈ t.postings, BothAt n n' A alike s s' p.acc := fun p hp => h.at_ _ (hA _ (by
      simp only [accountsOf, hv]; exact List.mem_map_of_mem hp))
    have hans := hc.book d hd t hv s.held s'.held (s.method option) (s'.method option) fun p hm => ⟨(hp p hm).held, (hp p hm).method option⟩
    generalize hr : L.book d.date t.postings tol s.held (s.method option) = r at *
    generalize hr' : L.book d.date t.postings tol s'.held (s'.method option) = r' at *
    cases hans with
    | refused e => exact .unchanged h i (.refused e)
    | booked is us us' hafter =>
      simp only
      have hw := wrongPosting_alike 0 (is.zip t.postings) fun z hz => hp _ (List.of_mem_zip hz).2
      generalize hx : s.wrongPosting 0 (is.zip t.postings) = x at *
      generalize hy : s'.wrongPosting 0 (is.zip t.postings) = y at *
      cases hw with
      | some hf =>
        obtain ⟨hf1, hf2⟩ := hf
        exact .fine h (fun _ _ => by rw [sub_self, sub_self]) (.cons ⟨⟨i, rfl, rfl⟩, by simp [hf1], hf2⟩ .nil)
      | none =>
        have hlen : is.length = t.postings.length := hL.book_length _ _ _ _ _ _ hr
        have open_ : ∀ (s : Tally L), s.wrongPosting 0 (is.zip t.postings) = none → ∀ p ∈ t.postings, s.standing p.acc ≠ .unknown := by
          intro s hw p hp
          obtain ⟨j, hj, hjp⟩ := List.getElem_of_mem hp
          have : (is[j]'(by omega), t.postings[j]) ∈ is.zip t.postings := by
            rw [List.mem_iff_getElem]
            exact ⟨j, by simp; omega, by simp⟩
          have hu := wrongPosting_nothing hw _ this
          simp only [hjp] at hu
          exact usage_known hu
        have kept : ∀ (s : Tally L) us, Kept s → s.wrongPosting 0 (is.zip t.postings) = none →
            L.book d.date t.postings tol s.held (s.method option) = .ok ⟨is, us⟩ → Kept { s with held := heldAfter s.held us } := by
          intro s us hk hw hb
          refine hk.same rfl (fun _ => Iff.rfl) fun a => foldl_isSome ?_ a
          intro x hx
          obtain ⟨p, hp, hpa⟩ := hL.book_accounts _ _ _ _ _ _ hb x.1 x.2 hx
          rw [← hpa]
          exact hk.held _ ((hk.known _).2 (open_ s hw p hp))
        have total : ∀ (s : Tally L) us, Kept s → s.wrongPosting 0 (is.zip t.postings) = none →
            L.book d.date t.postings tol s.held (s.method option) = .ok ⟨is, us⟩ → ∀ acc cur,
            (Tally.total { s with held := heldAfter s.held us } acc cur).val = (s.total acc cur).val +
              (((t.postings.zip is).map fun z => (z.1.acc, if z.2.currency = cur then z.2.lotUnits else 0)).map fun x =>
                if Below acc x.1 then x.2 else 0).sum := by
          intro s us hk hw hb acc cur
          refine total_added (s := s) (t := { s with held := heldAfter s.held us }) (cur := cur) hk.nodup rfl _ ?_ (fun a _ => ?_) acc
          · intro x hx
            obtain ⟨z, hz, rfl⟩ := List.mem_map.1 hx
            exact (hk.known _).2 (open_ s hw _ (List.of_mem_zip hz).1)
          · rw [unitsOf_booked hL hb, postingsChange_zip]
        refine .fine ⟨fun a ha => ⟨(h.at_ a ha).standing, (h.at_ a ha).terms, ?_, (h.at_ a ha).pending⟩, kept s us h.kept hx hr, kept s' us' h.kept' hy hr',
          h.other, h.known, h.known'⟩ (fun acc cur => ?_) .nil
        · by_cases hm : ∃ p ∈ t.postings, p.acc = a
          · obtain ⟨p, hp, rfl⟩ := hm
            exact hafter p hp
          · have : ∀ (held : Str → Option L.Pos) m us, L.book d.date t.postings tol held m = .ok ⟨is, us⟩ →
                us.foldl (fun (h : Str → Option L.Pos) aq => Function.update h aq.1 (some aq.2)) held a = held a := by
              intro held m us hb
              refine foldl_update_of_not _ _ fun u hu e => hm ?_
              obtain ⟨p, hp, hpa⟩ := hL.book_accounts _ _ _ _ _ _ hb u.1 u.2 hu
              exact ⟨p, hp, hpa.trans e⟩
            simp only [this _ _ _ hr, this _ _ _ hr']
            exact (h.at_ a ha).held
        · have h1 := total s us h.kept hx hr acc cur
          have h2 := total s' us' h.kept' hy hr' acc cur
          unfold heldAfter at h1 h2
          rw [h1, h2]
          ring
  | balance b =>
    simp only
    have ha : A b.acc := hA _ (by simp [accountsOf, hv])
    have hb := h.at_ b.acc ha
    have hu := hb.usage b.cur
    generalize hx : s.usage b.acc b.cur = x at *
    generalize hy : s'.usage b.acc b.cur = y at *
    cases hu with
    | some hf => exact .unchanged h i hf
    | none =>
      simp only
      have hm := (h.kept.known _).2 (usage_known hx)
      have hm' := (h.kept'.known _).2 (usage_known hy)
      have hgap : (b.units.sub (s.total b.acc b.cur)).val = (b.units.sub (s'.total b.acc b.cur)).val := by
        rw [Dec.val_sub, Dec.val_sub, htot b hv]
      generalize b.units.sub (s.total b.acc b.cur) = gap at *
      generalize b.units.sub (s'.total b.acc b.cur) = gap' at *
      have hgt : gap'.abs.gt (toleranceDec tol.multiplier b) = gap.abs.gt (toleranceDec tol.multiplier b) := by
        rw [Bool.eq_iff_iff, Dec.gt_iff, Dec.gt_iff, Dec.val_abs, Dec.val_abs, hgap]
      rw [hgt]
      have hpend := h.pend ha hm hm' (x := none) (x' := none) .none
      have hp := hb.pending
      generalize hpx : s.pending b.acc = px at *
      generalize hpy : s'.pending b.acc = py at *
      cases hg : gap.abs.gt (toleranceDec tol.multiplier b) <;> cases hp with
      | none => first
        | exact .same h
        | refine .fine (h.change hc b.acc b.cur hgap) (fun acc cur => ?_) (.cons ⟨⟨i, rfl, rfl⟩, rfl, .gap _ hgap.symm⟩ .nil)
          rw [total_changed hL h.kept hm, total_changed hL h.kept' hm', hgap]
          ring
      | @some q q' hq =>
        obtain ⟨k, src⟩ := q
        obtain ⟨k', src'⟩ := q'
        obtain ⟨hk, rfl, hsrc⟩ := hq
        simp only at hk hsrc
        first
        | exact .fine hpend (totals_kept rfl rfl rfl rfl) (.cons ⟨hk, rfl, .padUnneeded⟩ .nil)
        | have hn := (h.at_ src' hsrc).names h.kept h.kept'
          simp only [hn]
          split
          · rename_i hs
            have h1 := hpend.change hc b.acc b.cur hgap
            have h2 := h1.change hc src' b.cur (u := gap.neg) (u' := gap'.neg) (by rw [Dec.val_neg, Dec.val_neg, hgap])
            refine .fine h2 (fun acc cur => ?_) .nil
            rw [total_changed hL h1.kept hs, total_changed hL h1.kept' (hn.2 hs), total_changed hL hpend.kept hm, total_changed hL hpend.kept' hm',
              Dec.val_neg, Dec.val_neg, hgap]
            have := totals_kept (s := s) (s' := s') (t := { s with pending := Function.update s.pending b.acc none })
              (t' := { s' with pending := Function.update s'.pending b.acc none }) rfl rfl rfl rfl acc cur
            linarith
          · exact .crash
  | pad p =>
    simp only
    have ha : A p.acc := hA _ (by simp [accountsOf, hv])
    have hb := h.at_ p.acc ha
    have hu := hb.account
    have hp := hb.pending
    have hn := hb.names h.kept h.kept'
    have hm : s.account p.acc = none → p.acc ∈ s.names := fun hx => (h.kept.known _).2 fun hs => by simp [Tally.account, hs] at hx
    generalize hx : s.account p.acc = x at *
    generalize hy : s'.account p.acc = y at *
    generalize hpx : s.pending p.acc = px at *
    generalize hpy : s'.pending p.acc = py at *
    cases hu with
    | some hf => exact .unchanged h i hf
    | none =>
      have hm := hm rfl
      have tot : ∀ (x y : Option (Nat × Str)) (acc cur : Str), (Tally.total { s with pending := Function.update s.pending p.acc x } acc cur).val -
          (s.total acc cur).val = (Tally.total { s' with pending := Function.update s'.pending p.acc y } acc cur).val - (s'.total acc cur).val := by
        intro x y acc cur
        exact totals_kept rfl rfl rfl rfl acc cur
      cases hp with
      | none => exact .fine (h.pend ha hm (hn.2 hm) (.some ⟨⟨i, rfl, rfl⟩, rfl, hA _ (by simp [accountsOf, hv])⟩)) (tot _ _) .nil
      | some hq =>
        obtain ⟨hk, -, -⟩ := hq
        exact .fine (h.pend ha hm (hn.2 hm) .none) (tot _ _) (.cons ⟨hk, rfl, .padSuperseded (match_here n n' i)⟩ .nil)
  | _ => exact .same h

/-! ### What is returned -/

/-- The same is filled. -/
def FillsAlike (n n' : Nat) (x y : Nat × List Booked.Posting) : Prop := (∃ i, x.1 = n + i ∧ y.1 = n' + i) ∧ List.Forall₂ AlikePosting x.2 y.2

theorem Cont.fills (h : Cont n n' A alike s s') (tol : Tolerance) {d : Raw.Directive} (hA : ∀ a ∈ accountsOf d, A a)
    (htot : ∀ b, d.variant = .balance b → (s.total b.acc b.cur).val = (s'.total b.acc b.cur).val) :
    Option.Rel (FillsAlike n n') (s.fills tol d) (s'.fills tol d) := by
  unfold Tally.fills
  cases hv : d.variant with
  | balance b =>
    simp only
    have hgap : (b.units.sub (s'.total b.acc b.cur)).val = (b.units.sub (s.total b.acc b.cur)).val := by
      rw [Dec.val_sub, Dec.val_sub, htot b hv]
    generalize b.units.sub (s.total b.acc b.cur) = gap at *
    generalize b.units.sub (s'.total b.acc b.cur) = gap' at *
    have hgt : gap'.abs.gt (toleranceDec tol.multiplier b) = gap.abs.gt (toleranceDec tol.multiplier b) := by
      rw [Bool.eq_iff_iff, Dec.gt_iff, Dec.gt_iff, Dec.val_abs, Dec.val_abs, hgap]
    rw [hgt]
    have hp := (h.at_ b.acc (hA _ (by simp [accountsOf, hv]))).pending
    generalize s.pending b.acc = px at *
    generalize s'.pending b.acc = py at *
    cases gap.abs.gt (toleranceDec tol.multiplier b) <;> cases hp with
    | none => exact .none
    | @some q q' hq =>
      obtain ⟨k, src⟩ := q
      obtain ⟨k', src'⟩ := q'
      obtain ⟨hk, rfl, hsrc⟩ := hq
      first
      | exact .none
      | exact .some ⟨hk, .cons ⟨rfl, hgap⟩ (.cons ⟨rfl, by simp only [Dec.val_neg, hgap]⟩ .nil)⟩
  | _ => exact .none

theorem Cont.emits {option : Option Booking} {tol : Tolerance} {rest : List Raw.Directive} (hc : Carries L tol alike rest)
    (h : Cont n n' A alike s s') {d : Raw.Directive} (hd : d ∈ rest) (hA : ∀ a ∈ accountsOf d, A a) (i : Nat) :
    List.Forall₂ (AlikeBooked n n') (s.emits option tol (n + i) d) (s'.emits option tol (n' + i) d) := by
  have hv : s'.variants option tol d = s.variants option tol d := by
    unfold Tally.variants
    cases hv : d.variant with
    | transaction t =>
      simp only
      have hp : ∀ p ∈ t.postings, BothAt n n' A alike s s' p.acc := fun p hp => h.at_ _ (hA _ (by
        simp only [accountsOf, hv]; exact List.mem_map_of_mem hp))
      have hans := hc.book d hd t hv s.held s'.held (s.method option) (s'.method option) fun p hm => ⟨(hp p hm).held, (hp p hm).method option⟩
      generalize L.book d.date t.postings tol s.held (s.method option) = r at *
      generalize L.book d.date t.postings tol s'.held (s'.method option) = r' at *
      cases hans <;> rfl
    | _ => rfl
  unfold Tally.emits
  rw [hv]
  generalize s.variants option tol d = vs
  induction vs with
  | nil => exact .nil
  | cons v vs ih => exact .cons ⟨⟨i, rfl, rfl⟩, rfl, rfl, rfl, rfl, .same v⟩ ih

/-- All directives after both. -/
inductive AlikeRun (n n' : Nat) (A : Str → Prop) (alike : L.Pos → L.Pos → Prop) :
    Option (Tally L × List Finding) → Option (Tally L × List Finding) → Prop
  | crash : AlikeRun n n' A alike none none
  | fine {t t' fs fs'} : Cont n n' A alike t t' → List.Forall₂ (SameFinding n n') fs fs' → AlikeRun n n' A alike (some (t, fs)) (some (t', fs'))

theorem Cont.run (hL : L.Lawful) {option : Option Booking} {tol : Tolerance} {rest : List Raw.Directive} (hc : Carries L tol alike rest)
    (ds : List Raw.Directive) {s s' : Tally L} (h : Cont n n' A alike s s') (hd : ∀ d ∈ ds, d ∈ rest) (hA : ∀ d ∈ ds, ∀ a ∈ accountsOf d, A a)
    (htot : ∀ d ∈ ds, ∀ b, d.variant = .balance b → (s.total b.acc b.cur).val = (s'.total b.acc b.cur).val) (i : Nat) :
    AlikeRun n n' A alike (Tally.run option tol (n + i) s ds) (Tally.run option tol (n' + i) s' ds) ∧
    List.Forall₂ (AlikeBooked n n') (emitted option tol (Tally.history option tol (n + i) s ds))
      (emitted option tol (Tally.history option tol (n' + i) s' ds)) ∧
    List.Forall₂ (FillsAlike n n') (filled tol (Tally.history option tol (n + i) s ds)) (filled tol (Tally.history option tol (n' + i) s' ds)) := by
  induction ds generalizing s s' i with
  | nil => exact ⟨.fine h .nil, .nil, .nil⟩
  | cons d ds ih =>
    have hm := List.mem_cons_self (a := d) (l := ds)
    have hstep := h.step hL hc (option := option) (hd d hm) (hA d hm) (htot d hm) i
    have hem := h.emits hc (option := option) (hd d hm) (hA d hm) i
    have hfi := h.fills tol (hA d hm) (htot d hm)
    simp only [Tally.run, Tally.history]
    generalize s.step option tol (n + i) d = x at *
    generalize s'.step option tol (n' + i) d = y at *
    have key : ∀ (X X' : List (Tally L × Nat × Raw.Directive)),
        List.Forall₂ (AlikeBooked n n') (emitted option tol X) (emitted option tol X') →
        List.Forall₂ (FillsAlike n n') (filled tol X) (filled tol X') →
        List.Forall₂ (AlikeBooked n n') (emitted option tol ((s, n + i, d) :: X)) (emitted option tol ((s', n' + i, d) :: X')) ∧
        List.Forall₂ (FillsAlike n n') (filled tol ((s, n + i, d) :: X)) (filled tol ((s', n' + i, d) :: X')) := by
      intro X X' h1 h2
      refine ⟨?_, ?_⟩
      · simp only [emitted, List.flatMap_cons] at h1 ⊢
        exact List.rel_append hem h1
      · simp only [filled, List.filterMap_cons] at h2 ⊢
        generalize s.fills tol d = u at *
        generalize s'.fills tol d = v at *
        cases hfi with
        | none => exact h2
        | some hf => exact .cons hf h2
    cases hstep with
    | crash => exact ⟨.crash, key [] [] .nil .nil⟩
    | @fine t t' fs fs' ht htt hfs =>
      simp only
      obtain ⟨k1, k2, k3⟩ := ih ht (fun e he => hd e (List.mem_cons_of_mem _ he)) (fun e he => hA e (List.mem_cons_of_mem _ he))
        (fun e he b hb => by
          have h1 := htt b.acc b.cur
          have h2 := htot e (List.mem_cons_of_mem _ he) b hb
          linarith) (i + 1)
      rw [show n + i + 1 = n + (i + 1) by omega, show n' + i + 1 = n' + (i + 1) by omega]
      refine ⟨?_, key _ _ k2 k3⟩
      generalize Tally.run option tol (n + (i + 1)) t ds = p at *
      generalize Tally.run option tol (n' + (i + 1)) t' ds = q at *
      cases k1 with
      | crash => exact .crash
      | fine g1 g2 => exact .fine g1 (List.rel_append hfs g2)

/-- The same pads are pending at the end. -/
theorem Cont.unbalanced (h : Cont n n' A alike s s') :
    ∃ xs, s'.unbalanced.Perm xs ∧ List.Forall₂ (SameFinding n n') s.unbalanced xs := by
  let g (s : Tally L) : Str → Option Finding := fun a => (s.pending a).map fun p => { directive := p.1, fault := .padUnbalanced }
  have hfm : ∀ s : Tally L, s.unbalanced = (s.names.filter fun a => (s.pending a).isSome).filterMap (g s) := by
    intro s
    unfold Tally.unbalanced
    rw [List.filterMap_filter]
    congr 1
    funext a
    cases hp : s.pending a <;> simp [g, hp]
  have hperm : (s'.names.filter fun a => (s'.pending a).isSome).Perm (s.names.filter fun a => (s.pending a).isSome) := by
    refine (List.perm_ext_iff_of_nodup (h.kept'.nodup.filter _) (h.kept.nodup.filter _)).2 fun a => ?_
    simp only [List.mem_filter]
    have hsome : (s'.pending a).isSome = (s.pending a).isSome := by
      by_cases ha : A a
      · have := (h.at_ a ha).pending
        generalize s.pending a = x at *
        generalize s'.pending a = y at *
        cases this <;> rfl
      · rw [(h.other a ha).1, (h.other a ha).2]
    rw [hsome]
    constructor
    · rintro ⟨-, hp⟩
      exact ⟨h.known a hp, hp⟩
    · rintro ⟨-, hp⟩
      exact ⟨h.known' a (hsome ▸ hp), hp⟩
  refine ⟨(s.names.filter fun a => (s.pending a).isSome).filterMap (g s'), hfm s' ▸ hperm.filterMap _, ?_⟩
  rw [hfm s]
  generalize (s.names.filter fun a => (s.pending a).isSome) = l
  induction l with
  | nil => exact .nil
  | cons a l ih =>
    simp only [List.filterMap_cons, g]
    by_cases ha : A a
    · have := (h.at_ a ha).pending
      generalize s.pending a = x at *
      generalize s'.pending a = y at *
      cases this with
      | none => exact ih
      | some hq => exact .cons ⟨hq.1, rfl, .padUnbalanced⟩ ih
    · rw [(h.other a ha).1, (h.other a ha).2]
      exact ih

end

/-- The same directive once its pad is filled. -/
theorem fillIn_alike {n n' : Nat} {F F' : List (Nat × List Booked.Posting)} (hF : List.Forall₂ (FillsAlike n n') F F') {d d' : Booked.Directive}
    (h : AlikeBooked n n' d d') : AlikeBooked n n' (fillIn F d) (fillIn F' d') := by
  obtain ⟨i, h1, h2⟩ := h.idx
  have hfind : Option.Rel (FillsAlike n n') (F.find? fun f => f.1 = d.idx) (F'.find? fun f => f.1 = d'.idx) := by
    rw [h1, h2]
    clear h h1 h2
    induction hF with
    | nil => exact .none
    | @cons x y F F' hxy hF ih =>
      obtain ⟨⟨j, e1, e2⟩, e3⟩ := hxy
      simp only [List.find?_cons, e1, e2]
      by_cases hj : j = i
      · subst hj
        simp only [decide_true]
        exact .some ⟨⟨j, e1, e2⟩, e3⟩
      · have a1 : ¬ n + j = n + i := by omega
        have a2 : ¬ n' + j = n' + i := by omega
        simp only [a1, a2, decide_false]
        exact ih
  unfold fillIn
  generalize F.find? (fun f => decide (f.1 = d.idx)) = x at *
  generalize F'.find? (fun f => decide (f.1 = d'.idx)) = y at *
  have hv := h.variant
  cases hfind with
  | none => cases hd : d.variant <;> cases hd' : d'.variant <;> exact h
  | @some x y hxy =>
    generalize hd : d.variant = v at *
    generalize hd' : d'.variant = v' at *
    cases hv with
    | same =>
      cases v with
      | transaction t =>
        exact ⟨h.idx, h.date, h.tags, h.links, h.metadata, .transaction { t with postings := x.2 } y.2 hxy.2⟩
      | _ => exact h
    | transaction t ps hps =>
      exact ⟨h.idx, h.date, h.tags, h.links, h.metadata, .transaction { t with postings := x.2 } y.2 hxy.2⟩

end Limabean
