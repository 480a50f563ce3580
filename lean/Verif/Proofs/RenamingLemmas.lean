/-
What is remembered of a ledger, with other names for the accounts.
-/
import Verif.Spec.Renaming
import Verif.Proofs.FrameLemmas

namespace Limabean

open Spec

variable {L : BookLib}

theorem components_inj {a b : Str} (h : components a = components b) : a = b := by
  have := congrArg (List.intercalate [':']) h
  unfold components at this
  rwa [List.intercalate_splitOn, List.intercalate_splitOn] at this

theorem Below.refl' (a : Str) : Below a a := List.prefix_refl _

theorem Below.antisymm {a b : Str} (h : Below a b) (h' : Below b a) : a = b :=
  components_inj (h.eq_of_length (Nat.le_antisymm h.length_le h'.length_le))

/-- Names which respect what is below are different for different accounts. -/
theorem inj_of_below {f : Str → Str} {S : Str → Prop} (hb : ∀ a b, S a → S b → (Below (f a) (f b) ↔ Below a b))
    {a b : Str} (ha : S a) (hb' : S b) (h : f a = f b) : a = b :=
  Below.antisymm ((hb a b ha hb').1 (h ▸ Below.refl' _)) ((hb b a hb' ha).1 (h ▸ Below.refl' _))

/-- The same is remembered of an account under its other name. -/
structure RenAt (f : Str → Str) (s s' : Tally L) (a : Str) : Prop where
  terms : s'.terms (f a) = (s.terms a).map fun t => (t.1, { t.2 with acc := f t.2.acc })
  standing : s'.standing (f a) = s.standing a
  held : s'.held (f a) = s.held a
  pending : s'.pending (f a) = (s.pending a).map fun p => (p.1, f p.2)

/-- The same is remembered of the accounts under their other names. -/
structure Ren (f : Str → Str) (S : Str → Prop) (s s' : Tally L) : Prop where
  names : s'.names = s.names.map f
  inS : ∀ a ∈ s.names, S a
  at_ : ∀ a, S a → RenAt f s s' a
  source : ∀ a k src, s.pending a = some (k, src) → S src

variable {f : Str → Str} {S : Str → Prop} {s s' : Tally L}

theorem RenAt.account {a : Str} (h : RenAt f s s' a) : s'.account (f a) = s.account a := by
  unfold Tally.account
  rw [h.standing]

theorem RenAt.usage {a : Str} (h : RenAt f s s' a) (cur : Str) : s'.usage (f a) cur = s.usage a cur := by
  unfold Tally.usage
  rw [h.account, h.terms]
  cases s.account a <;> cases s.terms a <;> rfl

theorem RenAt.method {a : Str} (h : RenAt f s s' a) (option : Option Booking) :
    s'.method option (f a) = s.method option a := by
  unfold Tally.method
  rw [h.terms]
  cases s.terms a <;> rfl

theorem Ren.total (hb : ∀ a b, S a → S b → (Below (f a) (f b) ↔ Below a b)) (h : Ren f S s s') {a : Str} (ha : S a)
    (cur : Str) : s'.total (f a) cur = s.total a cur := by
  unfold Tally.total
  rw [h.names]
  congr 1
  have hS := h.inS
  generalize s.names = ns at hS
  induction ns with
  | nil => rfl
  | cons n ns ih =>
    have ih := ih fun b hb' => hS b (List.mem_cons_of_mem _ hb')
    have hn := hS n (by simp)
    simp only [List.map_cons, List.filter_cons]
    by_cases hbn : Below a n
    · have := (hb a n ha hn).2 hbn
      simp only [hbn, this, decide_true, if_true, List.map_cons, ih, (h.at_ n hn).held]
    · have : ¬ Below (f a) (f n) := fun x => hbn ((hb a n ha hn).1 x)
      simp only [hbn, this, decide_false, Bool.false_eq_true, if_false, ih]

theorem Ren.wrongPosting (h : Ren f S s s') (i : Nat) (is : List Interpolated) (ps : List Raw.PostingSpec)
    (hp : ∀ p ∈ ps, S p.acc) :
    s'.wrongPosting i (is.zip (ps.map (renamedPosting f))) = s.wrongPosting i (is.zip ps) := by
  induction ps generalizing i is with
  | nil => simp [Tally.wrongPosting]
  | cons p ps ih =>
    cases is with
    | nil => rfl
    | cons ip is =>
      simp only [List.map_cons, List.zip_cons_cons, Tally.wrongPosting]
      rw [show (renamedPosting f p).acc = f p.acc from rfl, (h.at_ _ (hp p (by simp))).usage,
        ih _ _ fun q hq => hp q (List.mem_cons_of_mem _ hq)]

theorem foldl_update_eq {V : Type} (us : List (Str × V)) (h : Str → Option V) (hn : (us.map Prod.fst).Nodup) {a : Str} {v : V}
    (ha : (a, v) ∈ us) :
    us.foldl (fun (h : Str → Option V) aq => Function.update h aq.1 (some aq.2)) h a = some v := by
  induction us generalizing h with
  | nil => cases ha
  | cons u us ih =>
    simp only [List.map_cons, List.nodup_cons] at hn
    simp only [List.foldl_cons]
    rcases List.mem_cons.1 ha with rfl | ha
    · rw [foldl_update_of_not]
      · simp
      · intro w hw e
        exact hn.1 (List.mem_map.2 ⟨w, hw, e⟩)
    · exact ih _ hn.2 ha

/-- New holdings under the other names. -/
theorem foldl_renamed {V : Type} {f : Str → Str} {us us' : List (Str × V)} {h h' : Str → Option V}
    (hn : (us.map Prod.fst).Nodup) (hn' : (us'.map Prod.fst).Nodup)
    (hp : us'.Perm (us.map fun u => (f u.1, u.2))) {a : Str} (hi : ∀ u ∈ us, f u.1 = f a → u.1 = a) (hh : h' (f a) = h a) :
    us'.foldl (fun (h : Str → Option V) aq => Function.update h aq.1 (some aq.2)) h' (f a) =
    us.foldl (fun (h : Str → Option V) aq => Function.update h aq.1 (some aq.2)) h a := by
  by_cases ha : ∃ v, (a, v) ∈ us
  · obtain ⟨v, hv⟩ := ha
    rw [foldl_update_eq us h hn hv, foldl_update_eq us' h' hn' (hp.mem_iff.2 (List.mem_map.2 ⟨_, hv, rfl⟩))]
  · rw [foldl_update_of_not us h, foldl_update_of_not us' h', hh]
    · intro w hw e
      obtain ⟨u, hu, rfl⟩ := List.mem_map.1 (hp.mem_iff.1 hw)
      exact ha ⟨u.2, (hi u hu e) ▸ hu⟩
    · intro w hw e
      exact ha ⟨w.2, e ▸ hw⟩

/-- The outcome of a directive, and that under the other names. -/
inductive RenStep (f : Str → Str) (S : Str → Prop) : Option (Tally L × List Finding) → Option (Tally L × List Finding) → Prop
  | crash : RenStep f S none none
  | fine {t t' fs fs'} : Ren f S t t' → List.Forall₂ Finding.Alike fs fs' → RenStep f S (some (t, fs)) (some (t', fs'))

theorem Spec.Finding.Alike.refl (x : Finding) : Finding.Alike x x := ⟨rfl, rfl, .same _⟩

theorem Finding.alike_refl (xs : List Finding) : List.Forall₂ Finding.Alike xs xs := by
  induction xs with
  | nil => exact .nil
  | cons x xs ih => exact .cons (.refl x) ih

section

variable (hb : ∀ a b, S a → S b → (Below (f a) (f b) ↔ Below a b))

include hb

theorem update_ren {V : Type} {g g' : Str → V} {W : V → V} {x a : Str} (hx : S x) (ha : S a) (hg : g' (f a) = W (g a))
    {v v' : V} (hv : v' = W v) : Function.update g' (f x) v' (f a) = W (Function.update g x v a) := by
  by_cases h : a = x
  · subst h; simp [hv]
  · rw [Function.update_of_ne h, Function.update_of_ne fun e => h (inj_of_below hb ha hx e), hg]

theorem Ren.setPending (h : Ren f S s s') {x : Str} (hx : S x) (p : Option (Nat × Str))
    (hp : ∀ k src, p = some (k, src) → S src) :
    Ren f S { s with pending := Function.update s.pending x p }
      { s' with pending := Function.update s'.pending (f x) (p.map fun p => (p.1, f p.2)) } := by
  refine ⟨h.names, h.inS, fun a ha => ⟨(h.at_ a ha).terms, (h.at_ a ha).standing, (h.at_ a ha).held, ?_⟩, ?_⟩
  · exact update_ren (W := fun (p : Option (Nat × Str)) => p.map fun p => (p.1, f p.2)) hb hx ha (h.at_ a ha).pending rfl
  · intro a k src he
    by_cases hax : a = x
    · subst hax
      exact hp k src (by simpa using he)
    · exact h.source a k src (by simpa [Function.update_of_ne hax] using he)

theorem Ren.setStanding (h : Ren f S s s') {x : Str} (hx : S x) (v : Standing) :
    Ren f S { s with standing := Function.update s.standing x v }
      { s' with standing := Function.update s'.standing (f x) v } :=
  ⟨h.names, h.inS, fun a ha => ⟨(h.at_ a ha).terms, update_ren (W := id) hb hx ha (h.at_ a ha).standing rfl, (h.at_ a ha).held,
    (h.at_ a ha).pending⟩, h.source⟩

theorem Ren.change (h : Ren f S s s') {x : Str} (hx : S x) (units : Dec) (cur : Str) :
    Ren f S (s.change x units cur) (s'.change (f x) units cur) :=
  ⟨h.names, h.inS, fun a ha => ⟨(h.at_ a ha).terms, (h.at_ a ha).standing,
    update_ren (W := id) hb hx ha (h.at_ a ha).held (by rw [(h.at_ x hx).held]; rfl),
    (h.at_ a ha).pending⟩, h.source⟩

theorem Ren.step (hL : L.Lawful) (hn : NameBlind L) {option : Option Booking} {tol : Tolerance} (h : Ren f S s s') (n : Nat)
    {d : Raw.Directive} (hd : ∀ a ∈ accountsOf d, S a) :
    RenStep f S (s.step option tol n d) (s'.step option tol n (renamedDirective f d)) := by
  obtain ⟨span, date, tags, links, metadata, v⟩ := d
  have same : RenStep f S (some (s, [])) (some (s', [])) := .fine h .nil
  have unch : ∀ x, RenStep f S (s.unchanged n x) (s'.unchanged n x) := fun x => .fine h (Finding.alike_refl _)
  cases v with
  | opn o =>
    have hx : S o.acc := hd _ (by simp [accountsOf])
    simp only [Tally.step, renamedDirective, (h.at_ _ hx).standing]
    cases s.standing o.acc with
    | unknown =>
      refine .fine ⟨by simp [h.names], ?_, fun a ha => ⟨?_, ?_, ?_, (h.at_ a ha).pending⟩, h.source⟩ .nil
      · intro a ha
        rcases List.mem_append.1 ha with ha | ha
        · exact h.inS a ha
        · rw [List.mem_singleton.1 ha]; exact hx
      · exact update_ren (W := fun (t : Option (Nat × Raw.Open)) => t.map fun t => (t.1, { t.2 with acc := f t.2.acc })) hb hx ha
          (h.at_ a ha).terms (v := some (n, o)) rfl
      · exact update_ren (W := id) hb hx ha (h.at_ a ha).standing rfl
      · exact update_ren (W := id) hb hx ha (h.at_ a ha).held rfl
    | opn k => exact unch _
    | reopened k j => exact unch _
    | closed k => exact .fine (h.setStanding hb hx _) (Finding.alike_refl _)
  | close c =>
    have hx : S c.acc := hd _ (by simp [accountsOf])
    simp only [Tally.step, renamedDirective, (h.at_ _ hx).standing]
    cases s.standing c.acc with
    | unknown => exact unch _
    | opn k => exact .fine (h.setStanding hb hx _) .nil
    | reopened k j => exact unch _
    | closed k => exact unch _
  | transaction t =>
    have hx : ∀ p ∈ t.postings, S p.acc := fun p hp => hd _ (by simp only [accountsOf]; exact List.mem_map.2 ⟨p, hp, rfl⟩)
    have hlib := hn f date t.postings tol s.held s'.held (s.method option) (s'.method option)
      (fun p hp q hq e => inj_of_below hb (hx p hp) (hx q hq) e)
      (fun p hp => ⟨(h.at_ _ (hx p hp)).held, (h.at_ _ (hx p hp)).method option⟩)
    simp only [Tally.step, renamedDirective]
    cases hr : L.book date t.postings tol s.held (s.method option) with
    | error e =>
      cases hr' : L.book date (t.postings.map (renamedPosting f)) tol s'.held (s'.method option) with
      | error e' =>
        rw [hr, hr'] at hlib
        exact .fine h (.cons ⟨rfl, rfl, .refused hlib⟩ .nil)
      | ok r' => rw [hr, hr'] at hlib; exact hlib.elim
    | ok r =>
      cases hr' : L.book date (t.postings.map (renamedPosting f)) tol s'.held (s'.method option) with
      | error e' => rw [hr, hr'] at hlib; exact hlib.elim
      | ok r' =>
        rw [hr, hr'] at hlib
        obtain ⟨h1, h2⟩ := hlib
        simp only [h1, h.wrongPosting 0 _ _ hx]
        cases s.wrongPosting 0 (r.interpolated.zip t.postings) with
        | some z => exact .fine h (Finding.alike_refl _)
        | none =>
          refine .fine ⟨h.names, h.inS, fun a ha => ⟨(h.at_ a ha).terms, (h.at_ a ha).standing, ?_, (h.at_ a ha).pending⟩, h.source⟩ .nil
          refine foldl_renamed (hL.book_nodup _ _ _ _ _ _ hr) (hL.book_nodup _ _ _ _ _ _ hr') h2 ?_ (h.at_ a ha).held
          intro u hu e
          obtain ⟨p, hp, he⟩ := hL.book_accounts _ _ _ _ _ _ hr u.1 u.2 hu
          exact inj_of_below hb (he ▸ hx p hp) ha e
  | balance b =>
    have hx : S b.acc := hd _ (by simp [accountsOf])
    simp only [Tally.step, renamedDirective, (h.at_ _ hx).usage, h.total hb hx, (h.at_ _ hx).pending]
    cases s.usage b.acc b.cur with
    | some x => exact unch x
    | none =>
      simp only [toleranceDec]
      cases (Dec.abs (b.units.sub (s.total b.acc b.cur))).gt _ with
      | false =>
        cases s.pending b.acc with
        | none => exact same
        | some p => exact .fine (h.setPending hb hx none (by simp)) (Finding.alike_refl _)
      | true =>
        cases hp : s.pending b.acc with
        | none => exact .fine (h.change hb hx _ _) (Finding.alike_refl _)
        | some p =>
          obtain ⟨k, src⟩ := p
          have hs := h.source _ _ _ hp
          simp only [Option.map_some]
          have hm : f src ∈ s'.names ↔ src ∈ s.names := by
            rw [h.names, List.mem_map]
            constructor
            · rintro ⟨a, ha, e⟩
              rw [← inj_of_below hb (h.inS a ha) hs e]; exact ha
            · intro ha
              exact ⟨_, ha, rfl⟩
          by_cases hm' : src ∈ s.names
          · rw [if_pos hm', if_pos (hm.2 hm')]
            exact .fine (((h.setPending hb hx none (by simp)).change hb hx _ _).change hb hs _ _) .nil
          · rw [if_neg hm', if_neg fun e => hm' (hm.1 e)]
            exact .crash
  | pad p =>
    have hx : S p.acc := hd _ (by simp [accountsOf])
    have hx' : S p.source := hd _ (by simp [accountsOf])
    simp only [Tally.step, renamedDirective, (h.at_ _ hx).account, (h.at_ _ hx).pending]
    cases s.account p.acc with
    | some x => exact unch x
    | none =>
      cases s.pending p.acc with
      | some q => exact .fine (h.setPending hb hx none (by simp)) (Finding.alike_refl _)
      | none => exact .fine (h.setPending hb hx (some (n, p.source)) (by simp [hx'])) .nil
  | price _ => exact same
  | commodity _ => exact same
  | document _ => exact same
  | note _ => exact same
  | event _ => exact same
  | query _ => exact same
  | custom _ => exact same

theorem Ren.run (hL : L.Lawful) (hn : NameBlind L) {option : Option Booking} {tol : Tolerance} (ds : List Raw.Directive) (n : Nat)
    {s s' : Tally L} (h : Ren f S s s') (hd : ∀ d ∈ ds, ∀ a ∈ accountsOf d, S a) :
    RenStep f S (Tally.run option tol n s ds) (Tally.run option tol n s' (ds.map (renamedDirective f))) := by
  induction ds generalizing n s s' with
  | nil => exact .fine h .nil
  | cons d ds ih =>
    have h1 := h.step hb hL hn (option := option) (tol := tol) n (hd d (by simp))
    simp only [List.map_cons, Tally.run]
    generalize s.step option tol n d = r at h1
    generalize s'.step option tol n (renamedDirective f d) = r' at h1
    cases h1 with
    | crash => exact .crash
    | fine ht hfs =>
      have h2 := ih (n + 1) ht fun e he => hd e (List.mem_cons_of_mem _ he)
      simp only
      generalize Tally.run option tol (n + 1) _ ds = q at h2
      generalize Tally.run option tol (n + 1) _ (ds.map (renamedDirective f)) = q' at h2
      cases h2 with
      | crash => exact .crash
      | fine ht' hfs' => exact .fine ht' (List.rel_append hfs hfs')

/-- The directives written, under the other names. -/
theorem Ren.emits (hn : NameBlind L) {option : Option Booking} {tol : Tolerance} (h : Ren f S s s') (n : Nat)
    {d : Raw.Directive} (hd : ∀ a ∈ accountsOf d, S a) :
    s'.emits option tol n (renamedDirective f d) = (s.emits option tol n d).map (renamedBooked f) := by
  obtain ⟨span, date, tags, links, metadata, v⟩ := d
  cases v with
  | transaction t =>
    have hx : ∀ p ∈ t.postings, S p.acc := fun p hp => hd _ (by simp only [accountsOf]; exact List.mem_map.2 ⟨p, hp, rfl⟩)
    have hlib := hn f date t.postings tol s.held s'.held (s.method option) (s'.method option)
      (fun p hp q hq e => inj_of_below hb (hx p hp) (hx q hq) e)
      (fun p hp => ⟨(h.at_ _ (hx p hp)).held, (h.at_ _ (hx p hp)).method option⟩)
    simp only [Tally.emits, Tally.variants, renamedDirective]
    cases hr : L.book date t.postings tol s.held (s.method option) with
    | error e =>
      cases hr' : L.book date (t.postings.map (renamedPosting f)) tol s'.held (s'.method option) with
      | error e' => rfl
      | ok r' => rw [hr, hr'] at hlib; exact hlib.elim
    | ok r =>
      cases hr' : L.book date (t.postings.map (renamedPosting f)) tol s'.held (s'.method option) with
      | error e' => rw [hr, hr'] at hlib; exact hlib.elim
      | ok r' =>
        rw [hr, hr'] at hlib
        simp only [hlib.1, List.map_cons, List.map_nil, renamedBooked, List.cons.injEq, and_true, Booked.Directive.mk.injEq,
          Booked.Variant.transaction.injEq, Booked.Transaction.mk.injEq, true_and]
        simp only [postingsFor, List.zip_map_right, List.zipIdx_map, List.flatMap_map, List.map_flatMap]
        congr 1
        funext z
        simp only [lotPostings, Prod.map, id]
        cases z.1.1.cost with
        | none => rfl
        | some ls => simp [renamedBookedPosting, renamedPosting]
  | _ => rfl

/-- The pads filled, under the other names. -/
theorem Ren.fills {tol : Tolerance} (h : Ren f S s s') {d : Raw.Directive} (hd : ∀ a ∈ accountsOf d, S a) :
    s'.fills tol (renamedDirective f d) = (s.fills tol d).map fun z => (z.1, z.2.map (renamedBookedPosting f)) := by
  obtain ⟨span, date, tags, links, metadata, v⟩ := d
  cases v with
  | balance b =>
    have hx : S b.acc := hd _ (by simp [accountsOf])
    simp only [Tally.fills, renamedDirective, h.total hb hx, (h.at_ _ hx).pending, toleranceDec]
    cases (Dec.abs (b.units.sub (s.total b.acc b.cur))).gt _ with
    | false => cases s.pending b.acc <;> rfl
    | true => cases s.pending b.acc <;> rfl
  | _ => rfl

theorem Ren.history (hL : L.Lawful) (hn : NameBlind L) {option : Option Booking} {tol : Tolerance} (ds : List Raw.Directive) (n : Nat)
    {s s' : Tally L} (h : Ren f S s s') (hd : ∀ d ∈ ds, ∀ a ∈ accountsOf d, S a) :
    ((Tally.history option tol n s' (ds.map (renamedDirective f))).flatMap fun x => x.1.emits option tol x.2.1 x.2.2) =
      ((Tally.history option tol n s ds).flatMap fun x => x.1.emits option tol x.2.1 x.2.2).map (renamedBooked f) ∧
    ((Tally.history option tol n s' (ds.map (renamedDirective f))).filterMap fun x => x.1.fills tol x.2.2) =
      ((Tally.history option tol n s ds).filterMap fun x => x.1.fills tol x.2.2).map fun z => (z.1, z.2.map (renamedBookedPosting f)) := by
  induction ds generalizing n s s' with
  | nil => exact ⟨rfl, rfl⟩
  | cons d ds ih =>
    have h1 := h.step hb hL hn (option := option) (tol := tol) n (hd d (by simp))
    have h2 := h.emits hb hn (option := option) (tol := tol) n (hd d (by simp))
    have h3 := h.fills hb (tol := tol) (hd d (by simp))
    have key : ∀ (X X' : List (Tally L × Nat × Raw.Directive)),
        (X'.flatMap fun x => x.1.emits option tol x.2.1 x.2.2) = (X.flatMap fun x => x.1.emits option tol x.2.1 x.2.2).map (renamedBooked f) ∧
        (X'.filterMap fun x => x.1.fills tol x.2.2) =
          (X.filterMap fun x => x.1.fills tol x.2.2).map (fun z => (z.1, z.2.map (renamedBookedPosting f))) →
        (((s', n, renamedDirective f d) :: X').flatMap fun x => x.1.emits option tol x.2.1 x.2.2) =
          (((s, n, d) :: X).flatMap fun x => x.1.emits option tol x.2.1 x.2.2).map (renamedBooked f) ∧
        (((s', n, renamedDirective f d) :: X').filterMap fun x => x.1.fills tol x.2.2) =
          (((s, n, d) :: X).filterMap fun x => x.1.fills tol x.2.2).map fun z => (z.1, z.2.map (renamedBookedPosting f)) := by
      rintro X X' ⟨e1, e2⟩
      refine ⟨by simp only [List.flatMap_cons, List.map_append, h2, e1], ?_⟩
      simp only [List.filterMap_cons, h3]
      cases s.fills tol d with
      | none => exact e2
      | some z => simp only [Option.map_some, List.map_cons, e2]
    simp only [List.map_cons, Tally.history]
    apply key
    generalize s.step option tol n d = r at h1
    generalize s'.step option tol n (renamedDirective f d) = r' at h1
    cases h1 with
    | crash => exact ⟨rfl, rfl⟩
    | fine ht hfs => exact ih (n + 1) ht fun e he => hd e (List.mem_cons_of_mem _ he)

end

theorem fillIn_renamed (F : List (Nat × List Booked.Posting)) (d : Booked.Directive) :
    fillIn (F.map fun z => (z.1, z.2.map (renamedBookedPosting f))) (renamedBooked f d) = renamedBooked f (fillIn F d) := by
  obtain ⟨idx, date, tags, links, metadata, v⟩ := d
  have : ((F.map fun z => (z.1, z.2.map (renamedBookedPosting f))).find? fun z => z.1 = idx) =
      (F.find? fun z => z.1 = idx).map fun z => (z.1, z.2.map (renamedBookedPosting f)) := by
    rw [List.find?_map]; rfl
  cases v with
  | transaction t =>
    unfold fillIn renamedBooked
    dsimp only
    rw [this]
    cases F.find? fun z => z.1 = idx <;> rfl
  | _ => rfl

theorem Ren.init : Ren f S (Tally.init L) (Tally.init L) :=
  ⟨rfl, by simp [Tally.init], fun _ _ => ⟨rfl, rfl, rfl, rfl⟩, by simp [Tally.init]⟩

theorem Ren.unbalanced (h : Ren f S s s') : s'.unbalanced = s.unbalanced := by
  unfold Tally.unbalanced
  rw [h.names, List.filterMap_map]
  apply List.filterMap_congr
  intro a ha
  simp only [Function.comp, (h.at_ a (h.inS a ha)).pending, Option.map_map]
  rfl

/-- The audit under other names. -/
theorem renamed_audit (hL : L.Lawful) (hn : NameBlind L) (option : Option Booking) (tol : Tolerance) {ds : List Raw.Directive}
    (hb : KeepsBelow f ds) :
    (audit L option tol ds = none ∧ audit L option tol (ds.map (renamedDirective f)) = none) ∨
    ∃ fs fs' ps, audit L option tol ds = some (fs, ps) ∧ audit L option tol (ds.map (renamedDirective f)) = some (fs', ps) ∧
      List.Forall₂ Finding.Alike fs fs' := by
  have h := Ren.run (S := fun a => ∃ d ∈ ds, a ∈ accountsOf d) (f := f)
    (fun a b ⟨d, h1, h2⟩ ⟨e, h3, h4⟩ => hb d h1 a h2 e h3 b h4) hL hn (option := option) (tol := tol) ds 0
    (Ren.init (L := L)) (fun d hd a ha => ⟨d, hd, ha⟩)
  unfold audit
  generalize Tally.run option tol 0 (Tally.init L) ds = r at h
  generalize Tally.run option tol 0 (Tally.init L) (ds.map (renamedDirective f)) = r' at h
  cases h with
  | crash => exact .inl ⟨rfl, rfl⟩
  | fine ht hfs => exact .inr ⟨_, _, _, rfl, by simp only [Option.map_some, ht.unbalanced], hfs⟩

theorem renamed_returned (hL : L.Lawful) (hn : NameBlind L) (option : Option Booking) (tol : Tolerance) {ds : List Raw.Directive}
    (hb : KeepsBelow f ds) :
    returned L option tol (ds.map (renamedDirective f)) = (returned L option tol ds).map (renamedBooked f) := by
  obtain ⟨h1, h2⟩ := Ren.history (S := fun a => ∃ d ∈ ds, a ∈ accountsOf d) (f := f)
    (fun a b ⟨d, h1, h2⟩ ⟨e, h3, h4⟩ => hb d h1 a h2 e h3 b h4) hL hn (option := option) (tol := tol) ds 0
    (Ren.init (L := L)) (fun d hd a ha => ⟨d, hd, ha⟩)
  unfold returned returnedOf
  rw [h1, h2, List.map_map, List.map_map]
  apply List.map_congr_left
  intro d _
  exact fillIn_renamed _ d

theorem renamed_warned (f : Str → Str) (ds : List Raw.Directive) : warned L (ds.map (renamedDirective f)) = warned L ds := by
  unfold warned
  rw [List.zipIdx_map, List.flatMap_map]
  congr 1
  funext z
  obtain ⟨⟨span, date, tags, links, metadata, v⟩, n⟩ := z
  cases v <;> rfl

end Limabean
