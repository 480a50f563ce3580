/-
The booked directives are those which `Spec.Tally.notes` notes.
-/
import Verif.Spec.Statement
import Verif.Proofs.FaultLemmas
import Verif.Props.C21

namespace Limabean

open Spec

variable {L : BookLib}

/-- What is noted of a booked directive. -/
def noteOf (d : Booked.Directive) : Option Noted :=
  match d.variant with
  | .transaction t => some (.moves d.idx d.date (t.payee.orElse fun _ => t.narration) (t.postings.map fun p => (p.acc, p.units)))
  | .balance b => some (.asserted d.idx b.raw.acc b.raw.cur b.raw.units)
  | _ => none

theorem noteOf_number {d : Booked.Directive} {x : Noted} (h : noteOf d = some x) : x.number = d.idx := by
  unfold noteOf at h
  cases hv : d.variant <;> simp [hv] at h <;> subst h <;> rfl

/-- The notes of booked directives, each of another directive. -/
structure Notes (n : Nat) (bk : List Booked.Directive) (l : List Noted) : Prop where
  eq : bk.filterMap noteOf = l
  nodup : (l.map Noted.number).Nodup
  lt : ∀ x ∈ l, x.number < n

theorem Notes.more {n : Nat} {bk : List Booked.Directive} {l : List Noted} (h : Notes n bk l) {x : List Booked.Directive}
    (hx : ∀ d ∈ x, noteOf d = none) : Notes (n + 1) (bk ++ x) l := by
  refine ⟨?_, h.nodup, fun y hy => Nat.lt_succ_of_lt (h.lt y hy)⟩
  rw [List.filterMap_append, h.eq, List.filterMap_eq_nil_iff.2 hx, List.append_nil]

theorem Notes.add {n : Nat} {bk : List Booked.Directive} {l : List Noted} (h : Notes n bk l) {x : List Booked.Directive}
    {y : Noted} (hx : x.filterMap noteOf = [y]) (hy : y.number = n) : Notes (n + 1) (bk ++ x) (l ++ [y]) := by
  refine ⟨by rw [List.filterMap_append, h.eq, hx], ?_, ?_⟩
  · rw [List.map_append, List.nodup_append]
    refine ⟨h.nodup, by simp, ?_⟩
    intro a ha b hb
    simp only [List.map_cons, List.map_nil, List.mem_singleton] at hb
    obtain ⟨z, hz, rfl⟩ := List.mem_map.1 ha
    have := h.lt z hz
    omega
  · intro z hz
    rcases List.mem_append.1 hz with hz | hz
    · exact Nat.lt_succ_of_lt (h.lt z hz)
    · rw [List.mem_singleton] at hz; rw [hz, hy]; omega

theorem fill_number (k : Nat) (lines : List (Str × Dec)) (x : Noted) : (x.fill k lines).number = x.number := by
  cases x <;> rfl

theorem fill_other {k : Nat} {lines : List (Str × Dec)} {x : Noted} (h : x.number ≠ k) : x.fill k lines = x := by
  cases x with
  | moves n d t o => simp only [Noted.fill]; rw [if_neg (show n ≠ k from h)]
  | asserted => rfl

/-- The postings of one transaction are replaced. -/
theorem Notes.fill {n : Nat} {bk : List Booked.Directive} {l : List Noted} (h : Notes n bk l) {j : Nat} {d : Booked.Directive}
    {t : Booked.Transaction} (hj : bk[j]? = some d) (hv : d.variant = .transaction t) (ps : List Booked.Posting) :
    Notes n (bk.set j (d.withPostings t ps)) (l.map (Noted.fill d.idx (ps.map fun p => (p.acc, p.units)))) := by
  have hlt := (List.getElem?_eq_some_iff.1 hj).1
  have hbk : bk = bk.take j ++ d :: bk.drop (j + 1) := by
    have := List.getElem?_eq_some_iff.1 hj
    obtain ⟨_, h2⟩ := this
    rw [← h2, ← List.drop_eq_getElem_cons, List.take_append_drop]
  have hd : noteOf d = some (.moves d.idx d.date (t.payee.orElse fun _ => t.narration) (t.postings.map fun p => (p.acc, p.units))) := by
    simp [noteOf, hv]
  have hd' : noteOf (d.withPostings t ps) =
      some (.moves d.idx d.date (t.payee.orElse fun _ => t.narration) (ps.map fun p => (p.acc, p.units))) := by
    simp [noteOf, Booked.Directive.withPostings]
  have hl : l = (bk.take j).filterMap noteOf ++ .moves d.idx d.date (t.payee.orElse fun _ => t.narration)
      (t.postings.map fun p => (p.acc, p.units)) :: (bk.drop (j + 1)).filterMap noteOf := by
    rw [← h.eq]
    conv_lhs => rw [hbk]
    rw [List.filterMap_append, List.filterMap_cons, hd]
  have hn := h.nodup
  rw [hl, List.map_append, List.map_cons, List.nodup_append] at hn
  obtain ⟨-, h2, h3⟩ := hn
  rw [List.nodup_cons] at h2
  refine ⟨?_, ?_, ?_⟩
  · rw [List.set_eq_take_append_cons_drop, if_pos hlt, List.filterMap_append, List.filterMap_cons, hd', hl, List.map_append, List.map_cons]
    congr 1
    · symm
      conv_rhs => rw [← List.map_id (List.filterMap noteOf (List.take j bk))]
      refine List.map_congr_left fun x hx => fill_other ?_
      exact h3 _ (List.mem_map_of_mem hx) _ (by simp [Noted.number])
    · simp only [Noted.fill, if_true]
      congr 1
      symm
      conv_rhs => rw [← List.map_id (List.filterMap noteOf (List.drop (j+1) bk))]
      refine List.map_congr_left fun x hx => fill_other fun hc => h2.1 ?_
      exact List.mem_map.2 ⟨x, hx, hc⟩
  · rw [List.map_map]
    have : Noted.number ∘ Noted.fill d.idx (ps.map fun p => (p.acc, p.units)) = Noted.number := by
      funext x
      exact fill_number _ _ x
    rw [this]
    exact h.nodup
  · intro x hx
    obtain ⟨y, hy, rfl⟩ := List.mem_map.1 hx
    rw [fill_number]
    exact h.lt y hy

theorem bookedPostings_moves (l : List (Interpolated × Raw.PostingSpec)) (i : Nat) :
    (bookedPostings i l).map (fun p => (p.acc, p.units)) = movesOf l := by
  induction l generalizing i with
  | nil => rfl
  | cons x l ih =>
    obtain ⟨ip, p⟩ := x
    simp only [bookedPostings, List.map_append, ih]
    unfold movesOf
    rw [List.flatMap_cons]
    congr 1
    unfold bookedPostingsOf
    cases ip.cost <;> simp

/-- One directive. -/
theorem Notes.step (hL : L.Lawful) {order : AMap Str (Account L) → AMap Str (Account L)} {o : BookOptions}
    (hf : (envOf L o order).Fair) {n : Nat} {raw : Raw.Directive} {r r' : Run L} {s : Tally L} {l : List Noted}
    (hi : StInv n r.booked r.st) (ht : Tal o.bookingMethod r.booked r.st s) (hn : Notes n r.booked l)
    (hs : r.step (envOf L o order) n raw = some r') :
    Notes (n + 1) r'.booked (s.note o.bookingMethod o.tolerance l n raw) := by
  have keep : Notes (n + 1) r.booked l := by simpa using hn.more (x := []) (by simp)
  have plain : ∀ v, (∀ t, raw.variant ≠ .transaction t) → (∀ b, raw.variant ≠ .balance b) → (∀ p, raw.variant ≠ .pad p) →
      raw.variant = v → Notes (n + 1) r'.booked l := by
    intro v h1 h2 h3 _
    rcases Run.step_some hs with ⟨st', x, hd, rfl⟩ | ⟨st', v, v2, bk, errs, hd, -, rfl⟩
    · exact keep
    · rcases State.directive_ok hd with ⟨t', hv', -⟩ | ⟨b', hv', -⟩ | ⟨op, hv', hop, rfl, rfl⟩ |
        ⟨cl, hv', hcl, rfl, rfl⟩ | ⟨p', v', hv', -⟩ | ⟨hpl, -, rfl, rfl⟩
      · exact absurd hv' (h1 _)
      · exact absurd hv' (h2 _)
      · have : v = .opn op := by
          unfold State.opn at hop
          split at hop
          · cases hop
          · dsimp only at hop
            split at hop
            · cases hop
            · cases hop; rfl
        subst this
        simpa using hn.more (x := [mkBooked n raw (.opn op)]) (by simp [noteOf, mkBooked])
      · have : v = .close cl := by
          unfold State.close at hcl
          split at hcl
          · split at hcl
            · cases hcl
            · cases hcl; rfl
          · cases hcl
        subst this
        simpa using hn.more (x := [mkBooked n raw (.close cl)]) (by simp [noteOf, mkBooked])
      · exact absurd hv' (h3 _)
      · have : noteOf (mkBooked n raw v) = none := by
          unfold plainVariant at hpl
          cases hr : raw.variant <;> simp [hr] at hpl <;> subst hpl <;> rfl
        simpa using hn.more (x := [mkBooked n raw v]) (by simpa using this)
  cases hv : raw.variant with
  | transaction t =>
    unfold Tally.note
    simp only [hv]
    unfold Run.step State.directive at hs
    simp only [hv, State.transaction, State.book, ht.inventory, ht.method] at hs
    rw [show (envOf L o order).tolerance = o.tolerance from rfl] at hs
    cases hb : L.book raw.date t.postings o.tolerance s.held (s.method o.bookingMethod) with
    | error e =>
      rw [hb] at hs
      cases e <;> cases hs <;> exact keep
    | ok q =>
      rw [hb] at hs
      simp only at hs ⊢
      rcases ht.firstPosting { directive := n } 0 (q.interpolated.zip t.postings) with
        ⟨j, f, x, h1, h2, h3, h4⟩ | ⟨h1, h2, h3⟩
      · rw [h1]
        rw [h2] at hs
        cases hs
        exact keep
      · rw [h1]
        rw [h2] at hs
        simp only at hs
        cases hin : State.installInventory { directive := n } r.st q.updated with
        | panic => simp [hin, Res.plain] at hs
        | err st' x =>
          exfalso
          obtain ⟨st', k1, k2⟩ := ht.install { directive := n } q.updated (by
            intro aq haq
            obtain ⟨p, hp, hpa⟩ := hL.book_accounts _ _ _ _ _ _ hb aq.1 aq.2 haq
            have hlen := hL.book_length _ _ _ _ _ _ hb
            obtain ⟨i, hi, hip⟩ := List.getElem_of_mem hp
            have hz : (q.interpolated[i]'(by omega), p) ∈ q.interpolated.zip t.postings := by
              rw [List.mem_iff_getElem]
              exact ⟨i, by simp; omega, by simp [hip]⟩
            have := h3 _ hz
            rw [hpa] at this
            exact this)
          rw [hin] at k1
          cases k1
        | ok st' u =>
          simp only [hin, Res.plain, balanceErrors, Option.map_none, Option.toList_none, List.append_nil] at hs
          cases hs
          refine hn.add ?_ rfl
          simp [noteOf, mkBooked, bookedPostings_moves]
  | pad p =>
    unfold Tally.note
    simp only [hv]
    unfold Run.step State.directive at hs
    simp only [hv, State.pad] at hs
    rcases ht.getValid p.acc { directive := n } with ⟨f, x, h1, h2, h3, h4⟩ | ⟨x, k, op, h1, h2, h3, h4, h5, h6, h7, h8⟩
    · rw [h1]
      rw [h2] at hs
      cases hs
      exact keep
    · rw [h1]
      rw [h2] at hs
      simp only at hs
      generalize hp : x.pad = xp at h5
      generalize hq : s.pending p.acc = sp at h5
      rw [hp] at hs
      cases h5 with
      | nothing =>
        simp only [balanceErrors, Option.map_some, Option.toList_some, List.append_nil] at hs
        cases hs
        dsimp only
        rw [List.append_assoc]
        refine hn.add ?_ rfl
        simp [noteOf, mkBooked]
        rfl
      | pending hs' =>
        cases hs
        exact keep
  | balance b =>
    unfold Tally.note
    simp only [hv]
    rcases ht.validate b.acc b.cur { directive := n } with ⟨f, x, h1, h2, h3, h4⟩ | ⟨h1, h2⟩
    · have : r.step (envOf L o order) n raw = some { st := r.st, booked := r.booked, errors := r.errors ++ [x] } := by
        unfold Run.step State.directive
        simp only [hv, State.balance]
        unfold State.validateAccountAndCurrency at h2
        cases hg : r.st.getValidAccount b.acc { directive := n } with
        | panic => simp [hg] at h2
        | err y => simp only [hg, Got.err.injEq] at h2; simp [h2]
        | ok a =>
          simp only [hg] at h2 ⊢
          cases hc : a.validateCurrency b.cur { directive := n } with
          | none => simp [hc] at h2
          | some y => simp only [hc, Got.err.injEq] at h2; simp [h2]
      rw [this] at hs
      cases hs
      rw [h1]
      exact keep
    · rw [h1]
      simp only
      obtain ⟨a, ho, ha, hc⟩ : ∃ a, r.st.opened.has b.acc = true ∧ r.st.accounts.get b.acc = some a ∧
          a.isCurrencyValid b.cur = true := by
        unfold State.validateAccountAndCurrency at h2
        cases hg : r.st.getValidAccount b.acc { directive := n } with
        | panic => simp [hg] at h2
        | err y => simp [hg] at h2
        | ok a =>
          simp only [hg] at h2
          cases hc : a.validateCurrency b.cur { directive := n } with
          | some y => simp [hc] at h2
          | none => exact ⟨a, (State.getValidAccount_ok.1 hg).1, (State.getValidAccount_ok.1 hg).2,
              Account.validateCurrency_none.1 hc⟩
      obtain ⟨k1, k2, k3⟩ := balance_step (env := envOf L o order) hi hv ho ha hc
      rw [ht.margin hi.wfA hf rfl b] at k1 k2 k3
      have hpad : PadIs r.booked a.pad (s.pending b.acc) := by
        rcases ht.getValid b.acc { directive := n } with ⟨f, x, -, g2, -⟩ | ⟨x, k, op, -, -, -, -, g5, g6, -, g8⟩
        · rw [(State.getValidAccount_ok (e := { directive := n })).2 ⟨ho, ha⟩] at g2
          cases g2
        · rw [ha] at g6
          cases g6
          exact g5
      have note : ∀ bal : Booked.Balance, bal.raw = b →
          List.filterMap noteOf [mkBooked n raw (.balance bal)] = [.asserted n b.acc b.cur b.units] := by
        rintro bal rfl
        simp [noteOf, mkBooked]
      cases hgt : (b.units.sub (s.total b.acc b.cur)).abs.gt (toleranceDec o.tolerance.multiplier b) with
      | false =>
        rw [k1 (by rw [hgt]; simp)] at hs
        cases hs
        simp only
        exact hn.add (note _ rfl) rfl
      | true =>
        rw [hgt] at k2 k3
        simp only [if_true, Option.some.injEq, forall_eq'] at k2 k3
        generalize hp : a.pad = xp at hpad
        generalize hq : s.pending b.acc = sp at hpad
        cases hpad with
        | nothing =>
          obtain ⟨rep, t, hr1, hr2, hr3, -, hr⟩ := k2 hp
          rw [hr] at hs
          cases hs
          simp only
          exact hn.add (note _ rfl) rfl
        | pending hs' =>
          rename_i i k src
          simp only
          obtain ⟨d, p, d2, t, g1, g2, -, g4, g5, g6, -, g8⟩ := hi.pad _ _ _ _ ha hp
          have hsrc : p.source = src := by
            unfold padSource at hs'
            simpa [g1, g2] using hs'
          subst hsrc
          rw [k3 _ i _ rfl hp d p d2 t g1 g2 g5 g6] at hs
          have hk : k = d2.idx := by
            rw [g8]
            exact congrArg ElementIdx.directive g4
          cases hsrc : (r.st.resetTo b a (b.units.sub (s.total b.acc b.cur)) r.booked.length).accounts.get p.source with
          | none => rw [hsrc] at hs; cases hs
          | some y =>
            rw [hsrc] at hs
            cases hs
            simp only
            rw [hk]
            exact (hn.fill g5 g6 (calculateBalancePadPostings b.cur (b.units.sub (s.total b.acc b.cur)) b.acc p.source)).add
              (note _ rfl) rfl
  | _ => exact (by unfold Tally.note; rw [hv]; exact plain _ (by simp [hv]) (by simp [hv]) (by simp [hv]) hv)

/-! ### The rows of a report -/

/-- The last total. -/
def endOf (t : Dec) (l : List (Date × Option Str × Str × Dec)) : Dec := l.foldl (fun t x => t.add x.2.2.2) t

theorem runningFrom_append (t : Dec) (l l' : List (Date × Option Str × Str × Dec)) :
    runningFrom t (l ++ l') = runningFrom t l ++ runningFrom (endOf t l) l' := by
  induction l generalizing t with
  | nil => rfl
  | cons x l ih =>
    obtain ⟨d, x, a, u⟩ := x
    simp only [List.cons_append, runningFrom, ih, endOf, List.foldl_cons]

theorem runningFrom_last (t t' : Dec) (l : List (Date × Option Str × Str × Dec)) (h : l = [] → t' = t) :
    ((runningFrom t l).getLast?.map StatementLine.total).getD t' = endOf t l := by
  induction l generalizing t with
  | nil => simpa [runningFrom, endOf] using h rfl
  | cons x l ih =>
    obtain ⟨d, x, a, u⟩ := x
    simp only [runningFrom, endOf, List.foldl_cons]
    cases l with
    | nil => rfl
    | cons y l =>
      obtain ⟨d', y, a', u'⟩ := y
      refine Eq.trans ?_ (ih (t.add u) (by simp))
      simp [runningFrom, List.getLast?_cons_cons]

/-- A line as the loop of the report keeps it. -/
def rowOf (base : Str) (x : StatementLine) : Date × Str × Str × Dec × Dec × Option Str :=
  (x.date, x.acc, x.acc.drop base.length, x.units, x.total, x.text)

theorem diagnosePostings_lines (base : Str) (date : Date) (text : Option Str) (ps : List Booked.Posting) (t : Dec) :
    diagnosePostings base date text t ps =
      (let l := ((ps.map fun p => (p.acc, p.units)).filter fun y => Below base y.1).map fun y => (date, text, y.1, y.2)
       (endOf t l, (runningFrom t l).map (rowOf base))) := by
  induction ps generalizing t with
  | nil => rfl
  | cons p ps ih =>
    simp only [diagnosePostings, List.map_cons, List.filter_cons]
    by_cases hb : isNonstrictSubaccount base p.acc = true
    · have hb' : Below base p.acc := (sub_iff_below base p.acc).1 hb
      simp only [hb, if_true, hb', decide_true, ih, List.map_cons, runningFrom, endOf, List.foldl_cons, rowOf]
    · have hb' : ¬ Below base p.acc := fun h => hb ((sub_iff_below base p.acc).2 h)
      simp only [hb, hb', decide_false, ih]
      simp

theorem diagnose_lines (base : Str) (ds : List Booked.Directive) (t : Dec) :
    diagnose base t ds =
      (let l := movedAt base (ds.filterMap noteOf)
       (endOf t l, (runningFrom t l).map (rowOf base))) := by
  induction ds generalizing t with
  | nil => rfl
  | cons d ds ih =>
    have other : (∀ x, d.variant ≠ .transaction x) → movedAt base ((d :: ds).filterMap noteOf) = movedAt base (ds.filterMap noteOf) := by
      intro h
      rw [List.filterMap_cons]
      cases hd : noteOf d with
      | none => rfl
      | some x =>
        unfold noteOf at hd
        cases hv : d.variant <;> simp [hv] at hd
        · exact absurd hv (h _)
        · subst hd
          simp [movedAt]
    unfold diagnose
    cases hv : d.variant with
    | transaction x =>
      simp only [diagnosePostings_lines, ih]
      have : noteOf d = some (.moves d.idx d.date (x.payee.orElse fun _ => x.narration) (x.postings.map fun p => (p.acc, p.units))) := by
        simp [noteOf, hv]
      rw [List.filterMap_cons, this]
      simp only [movedAt, List.flatMap_cons, runningFrom_append, List.map_append, endOf, List.foldl_append]
    | _ => simp only [ih]; rw [other (by simp [hv])]

theorem several_iff {l : List Str} : 1 < l.eraseDups.length ↔ ∃ y ∈ l, ∃ z ∈ l, y ≠ z := by
  cases l with
  | nil => simp
  | cons a l =>
    rw [List.eraseDups_cons, List.length_cons]
    constructor
    · intro h
      have : (l.filter fun b => !b == a) ≠ [] := by
        intro hn
        rw [hn] at h
        simp at h
      obtain ⟨b, hb⟩ := List.exists_mem_of_ne_nil _ this
      rw [List.mem_filter] at hb
      exact ⟨b, by simp [hb.1], a, by simp, by simpa using hb.2⟩
    · rintro ⟨y, hy, z, hz, hne⟩
      have : ∃ b ∈ l, b ≠ a := by
        by_cases hya : y = a
        · subst hya
          rcases List.mem_cons.1 hz with rfl | hz
          · exact absurd rfl hne
          · exact ⟨z, hz, hne.symm⟩
        · rcases List.mem_cons.1 hy with rfl | hy
          · exact absurd rfl hya
          · exact ⟨y, hy, hya⟩
      obtain ⟨b, hb, hba⟩ := this
      have hm : b ∈ (l.filter fun b => !b == a).eraseDups := by
        rw [List.mem_eraseDups, List.mem_filter]
        exact ⟨hb, by simpa using hba⟩
      have := List.length_pos_of_mem hm
      omega

/-! ### The window of an account -/

theorem assertsOn_iff {acc : Str} {d : Booked.Directive} {x : Noted} (h : noteOf d = some x) :
    x.assertsOn acc = isBalanceOn acc d := by
  unfold noteOf at h
  cases hv : d.variant <;> simp [hv] at h <;> subst h <;> simp [Noted.assertsOn, isBalanceOn, hv]

theorem takeWhile_all {α : Type} {p : α → Bool} {l : List α} (h : ∀ x ∈ l, p x = true) : l.takeWhile p = l := by
  induction l with
  | nil => rfl
  | cons x l ih =>
    rw [List.takeWhile_cons, if_pos (h x (by simp)), ih fun y hy => h y (by simp [hy])]

theorem sinceLast_all {acc : Str} {l : List Noted} (h : ∀ x ∈ l, x.assertsOn acc = false) : sinceLast acc l = l := by
  unfold sinceLast
  rw [takeWhile_all (by intro x hx; simp [h x (by simpa using hx)]), List.reverse_reverse]

theorem sinceLast_cut {acc : Str} {a c : List Noted} {x : Noted} (hx : x.assertsOn acc = true)
    (h : ∀ y ∈ c, y.assertsOn acc = false) : sinceLast acc (a ++ x :: c) = c := by
  unfold sinceLast
  rw [List.reverse_append, List.reverse_cons, List.append_assoc, List.takeWhile_append_of_pos (by
    intro y hy
    simp [h y (by simpa using hy)])]
  simp [List.takeWhile_cons, hx]

theorem openingOf_all {acc cur : Str} {l : List Noted} (h : ∀ x ∈ l, x.assertsOn acc = false) : openingOf acc cur l = Dec.zero := by
  unfold openingOf
  rw [List.find?_eq_none.2 (by intro x hx; simp [h x (by simpa using hx)])]

theorem openingOf_cut {acc cur : Str} {a c : List Noted} {n : Nat} {u : Str} {units : Dec}
    (h : ∀ y ∈ c, y.assertsOn acc = false) :
    openingOf acc cur (a ++ .asserted n acc u units :: c) = if u = cur then units else Dec.zero := by
  unfold openingOf
  rw [List.reverse_append, List.reverse_cons, List.append_assoc, List.find?_append,
    List.find?_eq_none.2 (by intro x hx; simp [h x (by simpa using hx)])]
  simp [Noted.assertsOn]

/-- The rows and the total of a report are the statement. -/
theorem report_statement {n : Nat} {bk : List Booked.Directive} {l : List Noted} (hn : Notes n bk l) (st : State L)
    (hw : WindowInv bk st) {acc : Str} {a : Account L} (ha : st.accounts.get acc = some a) (cur : Str) (start stop : Nat)
    (hnone : a.window = none → start = 0) (hsome : ∀ w, a.window = some w → start = w.stop)
    (h0 : ∀ d, bk[0]? = some d → ∀ b, d.variant ≠ .balance b) :
    diagnose acc (reportBase cur ⟨start, stop⟩ bk) (bk.drop start) =
      (statementTotal acc cur l, (statementLines acc cur l).map (rowOf acc)) := by
  have key : diagnose acc (reportBase cur ⟨start, stop⟩ bk) (bk.drop start) =
      (endOf (openingOf acc cur l) (movedAt acc (sinceLast acc l)), (statementLines acc cur l).map (rowOf acc)) := by
    have h := hw acc a ha
    rw [diagnose_lines]
    cases hwn : a.window with
    | none =>
      simp only [hwn] at h
      rw [hnone hwn]
      have hl : ∀ x ∈ l, x.assertsOn acc = false := by
        intro x hx
        rw [← hn.eq] at hx
        obtain ⟨d, hd, hdx⟩ := List.mem_filterMap.1 hx
        rw [assertsOn_iff hdx]
        exact h d hd
      have hbase : reportBase cur ⟨0, stop⟩ bk = Dec.zero := by
        unfold reportBase
        split
        · rename_i i dt tg ln md bal hz
          exact absurd rfl (h0 _ hz bal)
        · rfl
      simp only [statementLines, hbase, List.drop_zero, hn.eq, sinceLast_all hl, openingOf_all hl]
    | some w =>
      simp only [hwn] at h
      rw [hsome w hwn]
      obtain ⟨⟨d, h1, h2⟩, h3⟩ := h
      have hbk : bk = bk.take w.stop ++ d :: bk.drop (w.stop + 1) := by
        obtain ⟨_, h2⟩ := List.getElem?_eq_some_iff.1 h1
        rw [← h2, ← List.drop_eq_getElem_cons, List.take_append_drop]
      have hdrop : bk.drop w.stop = d :: bk.drop (w.stop + 1) := by
        obtain ⟨_, h2⟩ := List.getElem?_eq_some_iff.1 h1
        rw [← h2, ← List.drop_eq_getElem_cons]
      obtain ⟨bal, hv, hacc⟩ : ∃ bal, d.variant = .balance bal ∧ bal.raw.acc = acc := by
        unfold isBalanceOn at h2
        cases hv : d.variant <;> simp [hv] at h2
        exact ⟨_, rfl, h2⟩
      subst hacc
      have hd : noteOf d = some (.asserted d.idx bal.raw.acc bal.raw.cur bal.raw.units) := by simp [noteOf, hv]
      have hl : l = (bk.take w.stop).filterMap noteOf ++ .asserted d.idx bal.raw.acc bal.raw.cur bal.raw.units ::
          (bk.drop (w.stop + 1)).filterMap noteOf := by
        rw [← hn.eq]
        conv_lhs => rw [hbk]
        rw [List.filterMap_append, List.filterMap_cons, hd]
      have hrest : ∀ y ∈ (bk.drop (w.stop + 1)).filterMap noteOf, y.assertsOn bal.raw.acc = false := by
        intro y hy
        obtain ⟨d', hd', hdy⟩ := List.mem_filterMap.1 hy
        rw [assertsOn_iff hdy]
        obtain ⟨j, hj⟩ := List.mem_iff_getElem?.1 hd'
        rw [List.getElem?_drop] at hj
        exact h3 _ _ (by omega) hj
      have hbase : reportBase cur ⟨w.stop, stop⟩ bk = if bal.raw.cur = cur then bal.raw.units else Dec.zero := by
        unfold reportBase
        rw [h1]
        obtain ⟨i, dt, tg, ln, md, v⟩ := d
        simp only at hv
        subst hv
        rfl
      have hsince : sinceLast bal.raw.acc l = (bk.drop (w.stop + 1)).filterMap noteOf := by
        rw [hl]
        exact sinceLast_cut (by simp [Noted.assertsOn]) hrest
      have hopen : openingOf bal.raw.acc cur l = if bal.raw.cur = cur then bal.raw.units else Dec.zero := by
        rw [hl]
        exact openingOf_cut hrest
      have hm : movedAt bal.raw.acc ((bk.drop w.stop).filterMap noteOf) =
          movedAt bal.raw.acc ((bk.drop (w.stop + 1)).filterMap noteOf) := by
        rw [hdrop, List.filterMap_cons, hd]
        simp [movedAt]
      simp only [statementLines, hbase, hsince, hopen, hm]
  rw [key]
  unfold statementTotal statementLines
  rw [runningFrom_last _ _ _ fun _ => rfl]

end Limabean
