/-
Opening balances are accepted.
-/
import Mathlib.Algebra.BigOperators.Ring.Finset
import Verif.Spec.Opening
import Verif.Spec.Unpadded
import Verif.Proofs.ContinuedRun

namespace Limabean

open Spec

variable {L : BookLib}

/-! ### The lives of accounts -/

/-- Does the directive open or close the account? -/
def touches (a : Str) (d : Raw.Directive) : Bool :=
  match d.variant with
  | .opn o => o.acc = a
  | .close c => c.acc = a
  | _ => false

theorem next_untouched {a : Str} {d : Raw.Directive} (h : touches a d = false) (l : Life) : l.next a d.variant = l := by
  unfold touches at h
  cases hv : d.variant <;> simp only [hv, decide_eq_false_iff_not] at h <;> cases l <;> simp [Life.next, h]

theorem life_touched (ds : List Raw.Directive) (a : Str) : life ds a = life (ds.filter (touches a)) a := by
  induction ds using List.reverseRecOn with
  | nil => rfl
  | append_singleton ds d ih =>
    rw [life_snoc, List.filter_append]
    cases h : touches a d with
    | false => simp [next_untouched h, ih, h]
    | true => simp only [List.filter_cons, h, if_true, List.filter_nil, life_snoc, ih]

/-- Directives which open an account do so once, and those which close one do so while it is open. -/
def Orderly (ds : List Raw.Directive) : Prop :=
  ∀ pre d post, ds = pre ++ d :: post → (∀ o, d.variant = .opn o → life pre o.acc = .never) ∧
    ∀ c, d.variant = .close c → ∃ o, life pre c.acc = .opn o

/-- What becomes of an account in an orderly ledger. -/
inductive Course (a : Str) : Life → List Raw.Directive → Prop
  | never : Course a .never []
  | opn (d o) : d.variant = .opn o → o.acc = a → Course a (.opn o) [d]
  | closed (d o e c) : d.variant = .opn o → o.acc = a → e.variant = .close c → c.acc = a → Course a (.closed o) [d, e]

theorem Orderly.course {ds : List Raw.Directive} (h : Orderly ds) (a : Str) : Course a (life ds a) (ds.filter (touches a)) := by
  induction ds using List.reverseRecOn with
  | nil => exact .never
  | append_singleton ds d ih =>
    have ih := ih fun pre e post he => h pre e (post ++ [d]) (by simp [he])
    obtain ⟨h1, h2⟩ := h ds d [] rfl
    rw [life_snoc, List.filter_append]
    cases ht : touches a d with
    | false => simpa [next_untouched ht, ht] using ih
    | true =>
      simp only [List.filter_cons, ht, if_true, List.filter_nil]
      unfold touches at ht
      cases hv : d.variant <;> simp only [hv, decide_eq_true_eq, Bool.false_eq_true] at ht
      · rename_i o
        subst ht
        have := h1 o hv
        rw [this] at ih ⊢
        generalize List.filter (touches o.acc) ds = F at *
        cases ih
        simp only [Life.next, if_true, List.nil_append]
        exact .opn d o hv rfl
      · rename_i c
        subst ht
        obtain ⟨o, ho⟩ := h2 c hv
        rw [ho] at ih ⊢
        generalize List.filter (touches c.acc) ds = F at *
        cases ih with
        | opn e _ he hea =>
          simp only [Life.next, if_true]
          exact .closed e o d c he hea hv rfl

theorem touched_opens (ds : List Raw.Directive) (a : Str) : (opensOf ds).filter (touches a) = opensOf (ds.filter (touches a)) := by
  unfold opensOf
  rw [List.filter_filter, List.filter_filter]
  congr 1
  funext d
  rw [Bool.and_comm]

theorem touched_closes (ds : List Raw.Directive) (a : Str) : (closesOf ds).filter (touches a) = closesOf (ds.filter (touches a)) := by
  unfold closesOf
  rw [List.filter_filter, List.filter_filter]
  congr 1
  funext d
  rw [Bool.and_comm]

/-! ### Running the opening ledger -/

/-- A directive of an opening ledger fits what is before. -/
inductive FitsAfter (source : Str) (pre : List Raw.Directive) : Raw.Directive → Prop
  | opn (d o) : d.variant = .opn o → life pre o.acc = .never → FitsAfter source pre d
  | close (d c o) : d.variant = .close c → life pre c.acc = .opn o → FitsAfter source pre d
  | forward (t : Forward) (o e) : t.acc ≠ source → life pre t.acc = .opn o → (o.currencies.getD [] = [] ∨ t.cur ∈ o.currencies.getD []) →
      life pre source = .opn e → e.currencies.getD [] = [] → FitsAfter source pre (t.transaction source)

/-- What a directive moves. -/
def amounts (d : Raw.Directive) : List (Str × Dec × Str) :=
  match d.variant with
  | .transaction t => t.postings.map fun p => (p.acc, p.units.getD Dec.zero, p.cur.getD [])
  | _ => []

theorem usage_open {s : Tally L} {pre : List Raw.Directive} (h : Led pre s) {a c : Str} {o : Raw.Open} (ho : life pre a = .opn o)
    (hc : o.currencies.getD [] = [] ∨ c ∈ o.currencies.getD []) : s.usage a c = none ∧ (s.held a).isSome := by
  have hl := h.life a
  rw [ho] at hl
  have hn := h.kept.known a
  have hh := h.kept.held a
  unfold Tally.usage Tally.account
  generalize s.standing a = x at *
  generalize s.terms a = t at *
  cases hl with
  | opn _ h1 h2 =>
    refine ⟨by simp only [if_pos hc], hh (hn.2 (by simp))⟩

theorem FitsAfter.step (hp : BooksPlainly L) {option : Option Booking} {tol : Tolerance} {source : Str} {pre : List Raw.Directive} {s : Tally L}
    {d : Raw.Directive} (h : Led pre s) (hpend : ∀ a, s.pending a = none) (hf : FitsAfter source pre d) :
    ∃ s', s.step option tol pre.length d = some (s', []) ∧ (∀ a, s'.pending a = none) ∧ s.fills tol d = none ∧
      (postings (s.emits option tol pre.length d)).map (fun p => (p.acc, p.units, p.cur)) = amounts d := by
  cases hf with
  | opn _ o hv ho =>
    have hst : s.standing o.acc = .unknown := by
      have hl := h.life o.acc
      rw [ho] at hl
      generalize s.standing o.acc = x at *
      generalize s.terms o.acc = t at *
      cases hl; rfl
    have hstep : ∃ s', s.step option tol pre.length d = some (s', []) ∧ ∀ a, s'.pending a = none := by
      simp only [Tally.step, hv, hst]
      exact ⟨_, rfl, hpend⟩
    obtain ⟨s', hs', hp'⟩ := hstep
    refine ⟨s', hs', hp', by simp [Tally.fills, hv], ?_⟩
    simp [Tally.emits, Tally.variants, hv, postings, Spec.postingsOf, amounts]
  | close _ c o hv ho =>
    have hst : ∃ k, s.standing c.acc = .opn k := by
      have hl := h.life c.acc
      rw [ho] at hl
      generalize s.standing c.acc = x at *
      generalize s.terms c.acc = t at *
      cases hl; exact ⟨_, rfl⟩
    obtain ⟨k, hst⟩ := hst
    have hstep : ∃ s', s.step option tol pre.length d = some (s', []) ∧ ∀ a, s'.pending a = none := by
      simp only [Tally.step, hv, hst]
      exact ⟨_, rfl, hpend⟩
    obtain ⟨s', hs', hp'⟩ := hstep
    refine ⟨s', hs', hp', by simp [Tally.fills, hv], ?_⟩
    simp [Tally.emits, Tally.variants, hv, postings, Spec.postingsOf, amounts]
  | forward t o e hne ho hc he hcur =>
    obtain ⟨u1, k1⟩ := usage_open h ho hc
    obtain ⟨u2, k2⟩ := usage_open (c := t.cur) h he (.inl hcur)
    obtain ⟨p, hp1⟩ := Option.isSome_iff_exists.1 k1
    obtain ⟨q, hq1⟩ := Option.isSome_iff_exists.1 k2
    obtain ⟨r, hr, hi, -⟩ := hp t.date tol s.held (s.method option) t.acc source t.units t.cur none p q hne hp1 hq1
    have hstep : ∃ s', s.step option tol pre.length (t.transaction source) = some (s', []) ∧ ∀ a, s'.pending a = none := by
      simp only [Tally.step, Forward.transaction, hr, hi, List.zip_cons_cons, List.zip_nil_right, Tally.wrongPosting, u1, u2]
      exact ⟨_, rfl, hpend⟩
    obtain ⟨s', hs', hp'⟩ := hstep
    refine ⟨s', hs', hp', by simp [Tally.fills, Forward.transaction], ?_⟩
    simp [Tally.emits, Tally.variants, Forward.transaction, hr, hi, postings, Spec.postingsOf, amounts, postingsFor, lotPostings]

theorem FitsAfter.run (hL : L.Lawful) (hp : BooksPlainly L) {option : Option Booking} {tol : Tolerance} {source : Str} (ds : List Raw.Directive)
    {pre : List Raw.Directive} {s : Tally L} (h : Led pre s) (hpend : ∀ a, s.pending a = none)
    (hf : ∀ x d y, ds = x ++ d :: y → FitsAfter source (pre ++ x) d) :
    ∃ s', Tally.run option tol pre.length s ds = some (s', []) ∧ (∀ a, s'.pending a = none) ∧
      filled tol (Tally.history option tol pre.length s ds) = [] ∧
      (postings (emitted option tol (Tally.history option tol pre.length s ds))).map (fun p => (p.acc, p.units, p.cur)) = ds.flatMap amounts := by
  induction ds generalizing pre s with
  | nil => exact ⟨s, rfl, hpend, rfl, rfl⟩
  | cons d ds ih =>
    have h0 := hf [] d ds rfl
    rw [List.append_nil] at h0
    obtain ⟨s', h1, h2, h3, h4⟩ := h0.step (option := option) (tol := tol) hp h hpend
    have hlen : (pre ++ [d]).length = pre.length + 1 := by simp
    obtain ⟨s'', g1, g2, g3, g4⟩ := ih (pre := pre ++ [d]) (h.step hL h1) h2 (fun x e y he => by
      have := hf (d :: x) e y (by rw [he]; rfl)
      rwa [show pre ++ d :: x = pre ++ [d] ++ x by simp] at this)
    rw [hlen] at g1 g3 g4
    refine ⟨s'', ?_, g2, ?_, ?_⟩
    · simp only [Tally.run, h1, g1, List.nil_append]
    · simp only [Tally.history, h1, filled, List.filterMap_cons, h3]
      exact g3
    · simp only [Tally.history, h1, emitted, List.flatMap_cons, postings, List.flatMap_append, List.map_append]
      congr 1


/-! ### The opening ledger fits -/

theorem Led.orderly (hL : L.Lawful) {option : Option Booking} {tol : Tolerance} {ds : List Raw.Directive} {s : Tally L}
    (hs : Tally.run option tol 0 (Tally.init L) ds = some (s, [])) : Orderly ds := by
  intro pre d post he
  rw [he, Tally.run_append] at hs
  cases h1 : Tally.run option tol 0 (Tally.init L) pre with
  | none => simp [h1] at hs
  | some q =>
    obtain ⟨t, fs⟩ := q
    simp only [h1, Tally.run, Nat.zero_add] at hs
    cases h2 : t.step option tol pre.length d with
    | none => simp [h2] at hs
    | some q' =>
      obtain ⟨t', fs'⟩ := q'
      simp only [h2] at hs
      cases h3 : Tally.run option tol (pre.length + 1) t' post with
      | none => simp [h3] at hs
      | some q'' =>
        obtain ⟨t'', fs''⟩ := q''
        simp only [h3, Option.some.injEq, Prod.mk.injEq, List.append_eq_nil_iff] at hs
        obtain ⟨rfl, rfl, rfl, rfl⟩ := hs
        have hled := (Led.run (pre := []) hL pre [] Led.init ⟨by simp [Tally.init], by simp [Tally.init], by simp, by simp⟩ h1).1
        rw [List.nil_append] at hled
        refine ⟨fun o hv => ?_, fun c hv => ?_⟩
        · have hl := hled.life o.acc
          simp only [Tally.step, hv, Tally.unchanged] at h2
          generalize t.standing o.acc = x at *
          generalize t.terms o.acc = y at *
          generalize Spec.life pre o.acc = l at *
          cases hl <;> simp at h2 ⊢
        · have hl := hled.life c.acc
          simp only [Tally.step, hv, Tally.unchanged] at h2
          generalize t.standing c.acc = x at *
          generalize t.terms c.acc = y at *
          generalize Spec.life pre c.acc = l at *
          cases hl <;> simp at h2 ⊢

/-- The directive which opens the source. -/
abbrev openSource (date : Date) (source : Str) : Raw.Directive := { date := date, variant := .opn { acc := source } }

theorem touched_forwards (source : Str) (ts : List Forward) (a : Str) : (ts.map (Forward.transaction source)).filter (touches a) = [] := by
  rw [List.filter_eq_nil_iff]
  intro d hd
  obtain ⟨t, -, rfl⟩ := List.mem_map.1 hd
  simp [touches, Forward.transaction]

theorem touched_source {date : Date} {source a : Str} (h : a ≠ source) : touches a (openSource date source) = false := by
  simp [touches, Ne.symm h]

theorem touched_self (date : Date) (source : Str) : touches source (openSource date source) = true := by
  simp [touches]

theorem opensOf_course {a : Str} {l : Life} {F : List Raw.Directive} (h : Course a l F) :
    (l = .never ∧ opensOf F = [] ∧ closesOf F = []) ∨
    (∃ d o, l = .opn o ∧ opensOf F = [d] ∧ closesOf F = [] ∧ d.variant = .opn o ∧ o.acc = a) ∨
    ∃ d o e c, l = .closed o ∧ opensOf F = [d] ∧ closesOf F = [e] ∧ d.variant = .opn o ∧ o.acc = a ∧ e.variant = .close c ∧ c.acc = a := by
  cases h with
  | never => exact .inl ⟨rfl, rfl, rfl⟩
  | opn d o h1 h2 => exact .inr (.inl ⟨d, o, rfl, by simp [opensOf, h1], by simp [closesOf, h1], h1, h2⟩)
  | closed d o e c h1 h2 h3 h4 =>
    exact .inr (.inr ⟨d, o, e, c, rfl, by simp [opensOf, h1, h3], by simp [closesOf, h1, h3], h1, h2, h3, h4⟩)

theorem life_one {d : Raw.Directive} {o : Raw.Open} {a : Str} (h : d.variant = .opn o) (ha : o.acc = a) : life [d] a = .opn o := by
  simp [life, Life.next, h, ha]

/-- After the accounts are opened, and the source, and amounts are brought forward. -/
theorem life_opened {old : List Raw.Directive} (h : Orderly old) (date : Date) {source : Str} (ts : List Forward) {a : Str} (ha : a ≠ source)
    {o : Raw.Open} (hl : life old a = .opn o ∨ life old a = .closed o) :
    life (opensOf old ++ openSource date source :: ts.map (Forward.transaction source)) a = .opn o := by
  rw [life_touched, List.filter_append, List.filter_cons, touched_source ha, touched_forwards, touched_opens]
  simp only [Bool.false_eq_true, if_false, List.append_nil]
  rcases opensOf_course (h.course a) with ⟨e, -⟩ | ⟨d, o', e, h1, -, h3, h4⟩ | ⟨d, o', _, _, e, h1, -, h3, h4, -⟩
  · rw [e] at hl; simp at hl
  · rw [e] at hl
    simp only [Life.opn.injEq, reduceCtorEq, or_false] at hl
    subst hl
    rw [h1, life_one h3 h4]
  · rw [e] at hl
    simp only [Life.closed.injEq, reduceCtorEq, false_or] at hl
    subst hl
    rw [h1, life_one h3 h4]

theorem life_source {old : List Raw.Directive} (h : Orderly old) (date : Date) {source : Str} (hs : life old source = .never) (ts : List Forward) :
    life (opensOf old ++ openSource date source :: ts.map (Forward.transaction source)) source = .opn { acc := source } := by
  rw [life_touched, List.filter_append, List.filter_cons, touched_self, touched_forwards, touched_opens]
  rcases opensOf_course (h.course source) with ⟨-, e, -⟩ | ⟨d, o', e, h1, -⟩ | ⟨d, o', _, _, e, h1, -⟩
  · rw [e]
    exact life_one rfl rfl
  · rw [hs] at e; cases e
  · rw [hs] at e; cases e

/-- The accounts are left as the old ledger leaves them. -/
theorem life_opening {old : List Raw.Directive} (h : Orderly old) (date : Date) {source : Str} (ts : List Forward) {a : Str} (ha : a ≠ source) :
    life (openingLedger date source ts old) a = life old a := by
  rw [life_touched, openingLedger, List.filter_append, List.filter_cons, touched_source ha, List.filter_append, touched_forwards, touched_opens,
    touched_closes, life_touched old a]
  simp only [Bool.false_eq_true, if_false, List.nil_append]
  have hc := h.course a
  congr 1
  generalize life old a = l at *
  generalize List.filter (touches a) old = F at *
  cases hc with
  | never => rfl
  | opn d o h1 h2 => simp [opensOf, closesOf, h1]
  | closed d o e c h1 h2 h3 h4 => simp [opensOf, closesOf, h1, h3]

theorem append_eq_split {α : Type} {A B x y : List α} {d : α} (h : A ++ B = x ++ d :: y) :
    (∃ z, A = x ++ d :: z) ∨ ∃ z, x = A ++ z ∧ B = z ++ d :: y := by
  rcases List.append_eq_append_iff.1 h with ⟨z, h1, h2⟩ | ⟨z, h1, h2⟩
  · exact .inr ⟨z, h1, h2⟩
  · cases z with
    | nil => exact .inr ⟨[], by simpa using h1.symm, by simpa using h2.symm⟩
    | cons e z =>
      simp only [List.cons_append, List.cons.injEq] at h2
      obtain ⟨rfl, -⟩ := h2
      exact .inl ⟨z, h1⟩

theorem opening_fits {old : List Raw.Directive} (h : Orderly old) (date : Date) {source : Str} (hs : life old source = .never) {ts : List Forward}
    (hk : ∀ t ∈ ts, t.acc ≠ source ∧ life old t.acc ≠ .never ∧ Permits old t.acc t.cur) (x : List Raw.Directive) (d : Raw.Directive)
    (y : List Raw.Directive) (he : openingLedger date source ts old = x ++ d :: y) : FitsAfter source x d := by
  unfold openingLedger at he
  rcases append_eq_split he with ⟨z, e⟩ | ⟨z, rfl, e⟩
  · have hd : d ∈ opensOf old := by rw [e]; simp
    unfold opensOf at hd
    obtain ⟨hd, hv⟩ := List.mem_filter.1 hd
    cases hv' : d.variant <;> simp only [hv', Bool.false_eq_true] at hv
    rename_i o
    refine .opn d o hv' ?_
    have ht : touches o.acc d = true := by simp [touches, hv']
    have h1 := touched_opens old o.acc
    rw [e, List.filter_append, List.filter_cons, ht, if_pos rfl] at h1
    have : x.filter (touches o.acc) = [] := by
      rcases opensOf_course (h.course o.acc) with ⟨-, e', -⟩ | ⟨d', o', -, e', -⟩ | ⟨d', o', _, _, -, e', -⟩
      · rw [e'] at h1; simp at h1
      · rw [e'] at h1
        cases hx : x.filter (touches o.acc) with
        | nil => rfl
        | cons _ _ => rw [hx] at h1; simp at h1
      · rw [e'] at h1
        cases hx : x.filter (touches o.acc) with
        | nil => rfl
        | cons _ _ => rw [hx] at h1; simp at h1
    rw [life_touched, this]
    rfl
  · cases z with
    | nil =>
      simp only [List.nil_append, List.cons.injEq] at e
      obtain ⟨rfl, -⟩ := e
      refine .opn _ _ rfl ?_
      rw [List.append_nil, life_touched, touched_opens]
      rcases opensOf_course (h.course source) with ⟨-, e', -⟩ | ⟨d', o', e', -⟩ | ⟨d', o', _, _, e', -⟩
      · rw [e']; rfl
      · rw [hs] at e'; cases e'
      · rw [hs] at e'; cases e'
    | cons s z =>
      simp only [List.cons_append, List.cons.injEq] at e
      obtain ⟨rfl, e⟩ := e
      rcases append_eq_split e with ⟨z', e'⟩ | ⟨z', rfl, e'⟩
      · obtain ⟨ts1, tl, rfl, rfl, e2⟩ := List.map_eq_append_iff.1 e'
        obtain ⟨t, ts2, rfl, rfl, rfl⟩ := List.map_eq_cons_iff.1 e2
        obtain ⟨k1, k2, k3⟩ := hk t (by simp)
        have hex : ∃ o, life old t.acc = .opn o ∨ life old t.acc = .closed o := by
          cases hl : life old t.acc with
          | never => exact absurd hl k2
          | opn o => exact ⟨o, .inl rfl⟩
          | closed o => exact ⟨o, .inr rfl⟩
        obtain ⟨o, ho⟩ := hex
        exact .forward t o _ k1 (life_opened h date ts1 k1 ho) (k3 o ho) (life_source h date hs ts1) rfl
      · have hd : d ∈ closesOf old := by rw [e']; simp
        unfold closesOf at hd
        obtain ⟨hd, hv⟩ := List.mem_filter.1 hd
        cases hv' : d.variant <;> simp only [hv', Bool.false_eq_true] at hv
        rename_i c
        have ht : touches c.acc d = true := by simp [touches, hv']
        have h1 := touched_closes old c.acc
        rw [e', List.filter_append, List.filter_cons, ht, if_pos rfl] at h1
        rcases opensOf_course (h.course c.acc) with ⟨-, -, e2⟩ | ⟨d', o', -, -, e2, -⟩ | ⟨d', o', f, _, e3, e4, e2, h5, h6, -⟩
        · rw [e2] at h1; simp at h1
        · rw [e2] at h1; simp at h1
        · have hx : z'.filter (touches c.acc) = [] := by
            rw [e2] at h1
            cases hx : z'.filter (touches c.acc) with
            | nil => rfl
            | cons _ _ => rw [hx] at h1; simp at h1
          have hne : c.acc ≠ source := by
            rintro hcs
            rw [hcs, hs] at e3
            cases e3
          refine .close d c o' hv' ?_
          rw [life_touched, List.filter_append, List.filter_cons, touched_source hne, List.filter_append, touched_forwards, touched_opens, hx, e4]
          simp only [Bool.false_eq_true, if_false, List.append_nil]
          exact life_one h5 h6

/-! ### Balances -/

/-- Amounts of a currency on some accounts. -/
def amountOn (S : Str → Bool) (cur : Str) (l : List (Str × Dec × Str)) : ℚ := ((l.filter fun x => S x.1 && decide (x.2.2 = cur)).map fun x => x.2.1.val).sum

theorem amountOn_cons (S : Str → Bool) (cur : Str) (x : Str × Dec × Str) (l : List (Str × Dec × Str)) :
    amountOn S cur (x :: l) = (if S x.1 ∧ x.2.2 = cur then x.2.1.val else 0) + amountOn S cur l := by
  unfold amountOn
  by_cases h : S x.1 = true ∧ x.2.2 = cur
  · rw [if_pos h, List.filter_cons_of_pos (by simp [h]), List.map_cons, List.sum_cons]
  · rw [if_neg h, List.filter_cons_of_neg (by simpa using h), zero_add]

theorem amountOn_accounts (S : Str → Bool) (cur : Str) (l : List (Str × Dec × Str)) (U : Finset Str) (hU : ∀ x ∈ l, x.1 ∈ U) :
    amountOn S cur l = (U.filter fun a => S a = true).sum fun a => amountOn (fun b => decide (b = a)) cur l := by
  induction l with
  | nil => simp [amountOn]
  | cons x l ih =>
    rw [amountOn_cons, ih fun y hy => hU y (List.mem_cons_of_mem _ hy)]
    simp only [amountOn_cons, Finset.sum_add_distrib]
    congr 1
    simp only [decide_eq_true_eq]
    by_cases hc : x.2.2 = cur
    · simp only [hc, and_true]
      rw [Finset.sum_ite_eq]
      simp [hU x (by simp)]
    · simp [hc]

/-- The same on every account but one is the same on all accounts without it. -/
theorem amountOn_same {l m : List (Str × Dec × Str)} {source : Str} (h : ∀ a c, a ≠ source → amountOn (fun b => decide (b = a)) c l = amountOn (fun b => decide (b = a)) c m)
    (S : Str → Bool) (hS : S source = false) (cur : Str) : amountOn S cur l = amountOn S cur m := by
  have h1 := amountOn_accounts S cur l ((l ++ m).map Prod.fst).toFinset (fun x hx => by simp; exact .inl ⟨_, _, hx⟩)
  have h2 := amountOn_accounts S cur m ((l ++ m).map Prod.fst).toFinset (fun x hx => by simp; exact .inr ⟨_, _, hx⟩)
  rw [h1, h2]
  refine Finset.sum_congr rfl fun a ha => h a cur ?_
  rintro rfl
  simp [hS] at ha

end Limabean
