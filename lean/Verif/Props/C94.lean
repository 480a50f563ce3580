/-
C94: a period is what its dates say, and reports on consecutive periods add up.
-/
import Verif.Clj.DateArgs
import Verif.Spec.Periods
import Verif.Spec.Wire
import Verif.Props.C33
import Verif.Props.C34
import Verif.Props.C35
import Verif.Props.C93

namespace Limabean

open Spec Clj

namespace Clj

theorem not_dateLt {a b : Date} : ¬ DateLt b a ↔ DateLt a b ∨ a = b := by
  unfold DateLt
  constructor
  · intro h
    by_cases h' : a = b
    · exact Or.inr h'
    · left
      have : a.y ≠ b.y ∨ a.m ≠ b.m ∨ a.d ≠ b.d := by
        by_contra hc
        push Not at hc
        exact h' (by cases a; cases b; simp_all)
      omega
  · rintro (h | rfl) <;> omega

theorem dateLt_trans {a b c : Date} (h1 : DateLt a b) (h2 : DateLt b c) : DateLt a c := by
  unfold DateLt at *
  omega

theorem holding_eq {b : Beans} {fs : List Filter} {inv : AMap Str (List Position)} (h : inventory b fs = some inv) (acc cur : Str)
    (cost : Option Booked.Cost) :
    holding inv acc cur cost = totalUnits (fun x => x.posting.units) (selection b.directives fs)
      (fun x => x.posting.acc = acc ∧ x.posting.cur = cur ∧ SameCost x.posting.cost cost) := by
  rw [inventory, reportRows_eq, List.map_map] at h
  unfold holding
  rw [C29_conserved_per_cost _ _ _ h]
  unfold totalUnits
  rw [List.filter_map, List.map_map]
  rfl

theorem inventory_some (b : Beans) (fs : List Filter) :
    (∃ inv, inventory b fs = some inv) ↔ ∀ x ∈ selection b.directives fs, b.registry.accBooking x.posting.acc ≠ .average := by
  unfold inventory
  rw [C29_defined, reportRows_eq, List.map_map]
  simp

theorem mem_selection_cons (ds : List Booked.Directive) (f : Filter) (fs : List Filter) (x : Posted) :
    x ∈ selection ds (f :: fs) ↔ f x.seen = true ∧ x ∈ selection ds fs := by
  have : ∀ fs, x ∈ selection ds fs ↔ x ∈ allPosted ds ∧ ∀ f ∈ fs, f x.seen = true := by
    intro fs
    rw [selection, List.mem_filter, decide_eq_true_iff]
    rfl
  rw [this, this, List.forall_mem_cons]
  tauto

theorem totalUnits_split {α : Type} (u : α → Dec) (l : List α) (sel p q r : α → Prop) [DecidablePred sel] [DecidablePred p]
    [DecidablePred q] [DecidablePred r] (h : ∀ x ∈ l, (p x ↔ q x ∨ r x) ∧ ¬ (q x ∧ r x)) :
    totalUnits u (l.filter fun x => p x) sel = totalUnits u (l.filter fun x => q x) sel + totalUnits u (l.filter fun x => r x) sel := by
  unfold totalUnits
  induction l with
  | nil => simp
  | cons x l ih =>
    have ih := ih fun y hy => h y (by simp [hy])
    have hx := h x (by simp)
    by_cases hq : q x <;> by_cases hr : r x <;> by_cases hs : sel x <;> simp_all <;> ring

theorem splits_until {a b : Date} (h : ¬ DateLt b a) : Splits (dateLt b) (dateLt a) (dateGeLt a b) := by
  intro x
  rw [(C33_meaning a b x).1, (C33_meaning b b x).1, (C33_meaning a b x).2.2.2.2]
  cases x.date with
  | none => simp
  | some d =>
    simp only [Option.some.injEq, exists_eq_left']
    have h1 : ∀ d a : Date, DateLt a d ∨ d = a ↔ ¬ DateLt d a := fun d a => by rw [not_dateLt]; tauto
    rw [h1]
    unfold DateLt at *
    omega

theorem splits_between {a c b : Date} (h1 : ¬ DateLt c a) (h2 : ¬ DateLt b c) : Splits (dateGeLt a b) (dateGeLt a c) (dateGeLt c b) := by
  intro x
  rw [(C33_meaning a b x).2.2.2.2, (C33_meaning a c x).2.2.2.2, (C33_meaning c b x).2.2.2.2]
  cases x.date with
  | none => simp
  | some d =>
    simp only [Option.some.injEq, exists_eq_left']
    have h1 : ∀ d a : Date, DateLt a d ∨ d = a ↔ ¬ DateLt d a := fun d a => by rw [not_dateLt]; tauto
    rw [h1, h1]
    unfold DateLt at *
    omega

end Clj

/-! ### Inventories add up -/

/-- **C94.** If what one filter selects is divided among two others, there is an inventory for the one if there are for both, and what
is held on an account, of a currency and at a cost, is the sum of both. Besides any further filters, so that it applies to balances and
income statements too. -/
theorem C94_split (b : Beans) (fs : List Filter) {f g h : Filter} (hs : Splits f g h) :
    ((∃ inv, inventory b (f :: fs) = some inv) ↔ (∃ inv, inventory b (g :: fs) = some inv) ∧ ∃ inv, inventory b (h :: fs) = some inv) ∧
    ∀ inv inv1 inv2, inventory b (f :: fs) = some inv → inventory b (g :: fs) = some inv1 → inventory b (h :: fs) = some inv2 →
      ∀ acc cur cost, holding inv acc cur cost = holding inv1 acc cur cost + holding inv2 acc cur cost := by
  constructor
  · rw [inventory_some, inventory_some, inventory_some]
    simp only [mem_selection_cons]
    constructor
    · intro ha
      exact ⟨fun x hx => ha x ⟨(hs x.seen).1.2 (Or.inl hx.1), hx.2⟩, fun x hx => ha x ⟨(hs x.seen).1.2 (Or.inr hx.1), hx.2⟩⟩
    · rintro ⟨h1, h2⟩ x ⟨hf, hx⟩
      rcases (hs x.seen).1.1 hf with hg | hh
      · exact h1 x ⟨hg, hx⟩
      · exact h2 x ⟨hh, hx⟩
  · intro inv inv1 inv2 hi h1 h2 acc cur cost
    rw [holding_eq hi, holding_eq h1, holding_eq h2]
    refine totalUnits_split _ (allPosted b.directives) _ _ _ _ fun x _ => ?_
    have := hs x.seen
    simp only [Selected, List.mem_cons, forall_eq_or_imp]
    tauto

/-- **C94**: what is held at the end of a period is what was held before it, and what was added in it. -/
theorem C94_until (b : Beans) (fs : List Filter) {start stop : Date} (ho : ¬ DateLt stop start) {before during after : AMap Str (List Position)}
    (h1 : inventory b (dateLt start :: fs) = some before) (h2 : inventory b (dateGeLt start stop :: fs) = some during)
    (h3 : inventory b (dateLt stop :: fs) = some after) (acc cur : Str) (cost : Option Booked.Cost) :
    holding after acc cur cost = holding before acc cur cost + holding during acc cur cost :=
  (C94_split b fs (splits_until ho)).2 _ _ _ h3 h1 h2 acc cur cost

/-- **C94**: the reports on consecutive periods, as many as one likes, add up to the report on all of them. -/
theorem C94_periods (b : Beans) (fs : List Filter) (first : Date) (rest : List Date) (ho : Ascending (first :: rest))
    {invs : List (AMap Str (List Position))} {inv : AMap Str (List Position)}
    (h : (periods (first :: rest)).mapM (fun p => inventory b (dateGeLt p.1 p.2 :: fs)) = some invs)
    (hi : inventory b (dateGeLt first ((first :: rest).getLast (by simp)) :: fs) = some inv)
    (acc cur : Str) (cost : Option Booked.Cost) :
    holding inv acc cur cost = (invs.map fun i => holding i acc cur cost).sum := by
  induction rest generalizing first invs inv with
  | nil =>
    simp only [periods, List.tail_cons, List.zip_nil_right, List.mapM_nil, Option.pure_def, Option.some.injEq] at h
    subst h
    rw [holding_eq hi]
    have : selection b.directives (dateGeLt first first :: fs) = [] := by
      rw [List.eq_nil_iff_forall_not_mem]
      intro x hx
      rw [mem_selection_cons, (C33_meaning first first x.seen).2.2.2.2] at hx
      obtain ⟨⟨d, -, hd⟩, -⟩ := hx
      have := not_dateLt (a := first) (b := d)
      have := hd.2
      have := not_dateLt (a := first) (b := d)
      rcases hd.1 with h | rfl
      · exact this.2 (Or.inl h) hd.2
      · exact this.2 (Or.inr rfl) hd.2
    rw [List.getLast_singleton, this]
    rfl
  | cons c rest ih =>
    rw [Ascending, List.pairwise_cons] at ho
    have hp : periods (first :: c :: rest) = (first, c) :: periods (c :: rest) := rfl
    rw [hp, List.mapM_cons] at h
    simp only [Option.bind_eq_bind, Option.bind_eq_some_iff, Option.pure_def, Option.some.injEq] at h
    obtain ⟨i, h1, is, h2, rfl⟩ := h
    have hl : (first :: c :: rest).getLast (by simp) = (c :: rest).getLast (by simp) := rfl
    rw [hl] at hi
    have hlast : ¬ DateLt ((c :: rest).getLast (by simp)) c := by
      rcases List.mem_cons.1 (List.getLast_mem (l := c :: rest) (by simp)) with h | h
      · rw [h, not_dateLt]
        exact Or.inr rfl
      · exact (List.pairwise_cons.1 ho.2).1 _ h
    have hs := C94_split b fs (splits_between (ho.1 c (by simp)) hlast)
    obtain ⟨inv2, h3⟩ := (hs.1.1 ⟨inv, hi⟩).2
    rw [hs.2 _ _ _ hi h1 h3, ih c ho.2 h2 h3]
    simp

/-! ### Journals go on -/

namespace Clj

theorem filter_continue {α : Type} (l : List α) (p q r : α → Prop) [DecidablePred p] [DecidablePred q] [DecidablePred r]
    (ho : l.Pairwise fun x y => p y → p x) (hs : ∀ x ∈ l, (r x ↔ p x ∨ q x) ∧ ¬ (p x ∧ q x)) :
    l.filter (fun x => r x) = l.filter (fun x => p x) ++ l.filter fun x => q x := by
  induction l with
  | nil => rfl
  | cons x l ih =>
    rw [List.pairwise_cons] at ho
    have ih := ih ho.2 fun y hy => hs y (by simp [hy])
    have hx := hs x (by simp)
    by_cases hp : p x
    · have hq : ¬ q x := fun h => hx.2 ⟨hp, h⟩
      have hrx : r x := hx.1.2 (Or.inl hp)
      simp [hp, hq, hrx, ih]
    · have hn : l.filter (fun x => decide (p x)) = [] := by
        rw [List.filter_eq_nil_iff]
        intro y hy hpy
        exact hp (ho.1 y hy (by simpa using hpy))
      rw [hn, List.nil_append] at ih
      by_cases hq : q x
      · have hrx : r x := hx.1.2 (Or.inr hq)
        simp [hp, hq, hrx, hn, ih]
      · have hrx : ¬ r x := fun h => (hx.1.1 h).elim hp hq
        simp [hp, hq, hrx, hn, ih]

theorem selection_cons (ds : List Booked.Directive) (f : Filter) (fs : List Filter) :
    selection ds (f :: fs) = (selection ds fs).filter fun x => f x.seen = true := by
  unfold selection
  rw [List.filter_filter]
  refine List.filter_congr fun x _ => ?_
  rw [Bool.eq_iff_iff, Bool.and_eq_true, decide_eq_true_iff, decide_eq_true_iff, decide_eq_true_iff, Selected, List.forall_mem_cons]
  rfl

theorem allPosted_sorted {ds : List Booked.Directive} (h : ds.Pairwise fun x y => ¬ DateLt y.date x.date) :
    (allPosted ds).Pairwise fun x y => ¬ DateLt y.date x.date := by
  have hd : ∀ d, ∀ x ∈ allPosted [d], x.date = d.date := by
    intro d x hx
    unfold allPosted at hx
    simp only [List.flatMap_cons, List.flatMap_nil, List.append_nil] at hx
    split at hx
    · obtain ⟨p, -, rfl⟩ := List.mem_map.1 hx
      rfl
    · cases hx
  have ha : ∀ d ds, allPosted (d :: ds) = allPosted [d] ++ allPosted ds := by simp [allPosted]
  induction ds with
  | nil => exact List.Pairwise.nil
  | cons d ds ih =>
    rw [List.pairwise_cons] at h
    rw [ha, List.pairwise_append]
    refine ⟨?_, ih h.2, fun x hx y hy => ?_⟩
    · refine List.pairwise_of_forall_mem_list fun x hx y hy => ?_
      rw [hd d x hx, hd d y hy, not_dateLt]
      exact Or.inr rfl
    · rw [hd d x hx]
      obtain ⟨e, he, hy⟩ := List.mem_flatMap.1 hy
      have : y ∈ allPosted [e] := by simpa [allPosted] using hy
      rw [hd e y this]
      exact h.1 e he

theorem selection_continue {ds : List Booked.Directive} (hd : ds.Pairwise fun x y => ¬ DateLt y.date x.date) (fs : List Filter)
    {start stop : Date} (ho : ¬ DateLt stop start) :
    selection ds (dateLt stop :: fs) = selection ds (dateLt start :: fs) ++ selection ds (dateGeLt start stop :: fs) := by
  rw [selection_cons, selection_cons, selection_cons]
  refine filter_continue _ _ _ _ ?_ fun x _ => splits_until ho x.seen
  refine ((allPosted_sorted hd).filter _).imp fun {x y} hxy hy => ?_
  rw [(C33_meaning start start _).1] at hy ⊢
  obtain ⟨d, h1, h2⟩ := hy
  cases h1
  refine ⟨x.date, rfl, ?_⟩
  have h3 : DateLt y.date start := h2
  unfold DateLt at *
  omega

theorem withBal_take (s : Inv) (rows more : List Row) : (withBal s (rows ++ more)).take rows.length = withBal s rows := by
  induction rows generalizing s with
  | nil => simp [withBal]
  | cons r rows ih => simp [withBal, ih]

end Clj

/-- **C94**, journals: in a ledger in order of date the journal until the end of a period is the journal until its beginning, followed
by the rows of the journal of the period. There the balance is that of the journal of the period added to the last balance before. -/
theorem C94_journal (b : Beans) (hd : b.directives.Pairwise fun x y => ¬ DateLt y.date x.date) (fs : List Filter) {start stop : Date}
    (ho : ¬ DateLt stop start) :
    ∃ later : List JournalEntry, journal b (dateLt stop :: fs) = journal b (dateLt start :: fs) ++ later ∧
      later.map JournalEntry.row = (journal b (dateGeLt start stop :: fs)).map JournalEntry.row ∧
      ∀ (n : Nat) (x y : JournalEntry), later[n]? = some x → (journal b (dateGeLt start stop :: fs))[n]? = some y → ∀ cur,
        totalUnits Position.units x.bal (fun p => p.cur = cur) =
          totalUnits Position.units (((journal b (dateLt start :: fs)).getLast?.map JournalEntry.bal).getD []) (fun p => p.cur = cur) +
          totalUnits Position.units y.bal (fun p => p.cur = cur) := by
  have hsel := selection_continue hd fs ho
  have hrows : reportRows b.directives (dateLt stop :: fs) =
      reportRows b.directives (dateLt start :: fs) ++ reportRows b.directives (dateGeLt start stop :: fs) := by
    rw [reportRows_eq, reportRows_eq, reportRows_eq, hsel, List.map_append]
  have htake : (journal b (dateLt stop :: fs)).take (journal b (dateLt start :: fs)).length = journal b (dateLt start :: fs) := by
    unfold journal journalBuild
    rw [withBal_length, hrows, withBal_take]
  have hmap : (journal b (dateLt stop :: fs)).map JournalEntry.row = (journal b (dateLt start :: fs)).map JournalEntry.row ++
      (journal b (dateGeLt start stop :: fs)).map JournalEntry.row := by
    rw [C35_rows, C35_rows, C35_rows, hsel, List.map_append]
  have happ : journal b (dateLt stop :: fs) = journal b (dateLt start :: fs) ++
      (journal b (dateLt stop :: fs)).drop (journal b (dateLt start :: fs)).length := by
    conv_lhs => rw [← List.take_append_drop (journal b (dateLt start :: fs)).length (journal b (dateLt stop :: fs)), htake]
  have hlater : ((journal b (dateLt stop :: fs)).drop (journal b (dateLt start :: fs)).length).map JournalEntry.row =
      (journal b (dateGeLt start stop :: fs)).map JournalEntry.row := by
    rw [happ, List.map_append] at hmap
    exact List.append_cancel_left hmap
  refine ⟨_, happ, hlater, fun n x y hx hy cur => ?_⟩
  generalize hl : (journal b (dateLt stop :: fs)).drop (journal b (dateLt start :: fs)).length = later at *
  have hx' : (journal b (dateLt stop :: fs))[(journal b (dateLt start :: fs)).length + n]? = some x := by
    rw [happ, List.getElem?_append_right (by omega), Nat.add_sub_cancel_left, hx]
  have h1 := (C35_balance b _ _ _ hx').2.2 cur
  have h2 := (C35_balance b _ _ _ hy).2.2 cur
  rw [h1, h2]
  have h3 : totalUnits Position.units (((journal b (dateLt start :: fs)).getLast?.map JournalEntry.bal).getD []) (fun p => p.cur = cur) =
      totalUnits (fun x => x.row.posting.units) (journal b (dateLt start :: fs)) (fun x => x.row.posting.cur = cur) := by
    cases hj : (journal b (dateLt start :: fs)).getLast? with
    | none =>
      rw [List.getLast?_eq_none_iff] at hj
      rw [hj]
      rfl
    | some z =>
      have hz : (journal b (dateLt start :: fs))[(journal b (dateLt start :: fs)).length - 1]? = some z := by
        rw [← hj, List.getLast?_eq_getElem?]
      have h4 := (C35_balance b _ _ _ hz).2.2 cur
      have hpos : 0 < (journal b (dateLt start :: fs)).length := by
        cases hq : journal b (dateLt start :: fs) with
        | nil => rw [hq] at hj; cases hj
        | cons a l => simp
      rw [Nat.sub_add_cancel hpos, List.take_length] at h4
      exact h4
  have h5 : (journal b (dateLt stop :: fs)).take ((journal b (dateLt start :: fs)).length + n + 1) =
      journal b (dateLt start :: fs) ++ later.take (n + 1) := by
    rw [happ, Nat.add_assoc, List.take_length_add_append]
  have hu : ∀ l1 l2 : List JournalEntry, l1.map JournalEntry.row = l2.map JournalEntry.row →
      totalUnits (fun x => x.row.posting.units) l1 (fun x => x.row.posting.cur = cur) =
      totalUnits (fun x => x.row.posting.units) l2 (fun x => x.row.posting.cur = cur) := by
    have key : ∀ l : List JournalEntry, totalUnits (fun x => x.row.posting.units) l (fun x => x.row.posting.cur = cur) =
        totalUnits (fun r => r.posting.units) (l.map JournalEntry.row) (fun r => r.posting.cur = cur) := by
      intro l
      unfold totalUnits
      rw [List.filter_map, List.map_map]
      rfl
    intro l1 l2 h
    rw [key, key, h]
  rw [h3, h5, totalUnits, List.filter_append, List.map_append, List.sum_append]
  congr 1
  exact hu _ _ (by rw [List.map_take, List.map_take, hlater])

namespace Clj

theorem image_dates {n : Nat} {ds : List Raw.Directive} {out : List Booked.Directive} (h : Spec.Image n ds out) :
    ∀ x ∈ out, ∃ raw ∈ ds, x.date = raw.date := by
  induction h with
  | nil => simp
  | single _ he _ _ ih =>
    intro x hx
    rcases List.mem_cons.1 hx with rfl | hx
    · exact ⟨_, by simp, he.date⟩
    · obtain ⟨raw, hr, h⟩ := ih x hx
      exact ⟨raw, by simp [hr], h⟩
  | padded _ he _ he' _ _ ih =>
    intro x hx
    rcases List.mem_cons.1 hx with rfl | hx
    · exact ⟨_, by simp, he.date⟩
    rcases List.mem_cons.1 hx with rfl | hx
    · exact ⟨_, by simp, he'.date⟩
    · obtain ⟨raw, hr, h⟩ := ih x hx
      exact ⟨raw, by simp [hr], h⟩

theorem image_sorted {n : Nat} {ds : List Raw.Directive} {out : List Booked.Directive} (h : Spec.Image n ds out)
    (hd : ds.Pairwise fun x y => ¬ DateLt y.date x.date) : out.Pairwise fun x y => ¬ DateLt y.date x.date := by
  induction h with
  | nil => exact List.Pairwise.nil
  | single _ he _ hi ih =>
    rw [List.pairwise_cons] at hd ⊢
    refine ⟨fun y hy => ?_, ih hd.2⟩
    obtain ⟨raw, hr, h⟩ := image_dates hi y hy
    rw [h, he.date]
    exact hd.1 raw hr
  | padded _ he _ he' _ hi ih =>
    rw [List.pairwise_cons] at hd
    rw [List.pairwise_cons, List.pairwise_cons]
    refine ⟨fun y hy => ?_, fun y hy => ?_, ih hd.2⟩
    · rcases List.mem_cons.1 hy with rfl | hy
      · rw [he.date, he'.date, not_dateLt]
        exact Or.inr rfl
      · obtain ⟨raw, hr, h⟩ := image_dates hi y hy
        rw [h, he.date]
        exact hd.1 raw hr
    · obtain ⟨raw, hr, h⟩ := image_dates hi y hy
      rw [h, he'.date]
      exact hd.1 raw hr

end Clj

/-- **C94**: what is booked from a ledger in order of date is in order of date, with what is added for pads. -/
theorem C94_sorted (L : BookLib) (order : AMap Str (Account L) → AMap Str (Account L)) (o : BookOptions)
    (ds : List Raw.Directive) (out : List Booked.Directive) (w : List IndexedReport)
    (h : book L order o ds = .success out w) (hd : ds.Pairwise fun x y => ¬ DateLt y.date x.date) :
    out.Pairwise fun x y => ¬ DateLt y.date x.date :=
  image_sorted (C01_image L order o ds out w h) hd

/-! ### Which days a period has -/

/-- **C94**: a year, given by two numbers, is the days of that year. -/
theorem C94_year (y : Nat) (hy : y < 9999) :
    ∃ f, dateGeLtArgs [.num y, .num (y + 1)] = some f ∧ ∀ x : Fields, ∀ d, x.date = some d → CalendarDate d → (f x = true ↔ d.y = y) := by
  refine ⟨dateGeLt ⟨y, 1, 1⟩ ⟨y + 1, 1, 1⟩, ?_, fun x d hx hd => ?_⟩
  · have h : ∀ y, y ≤ 9999 → toLocalDate [.num y] = some ⟨y, 1, 1⟩ := by
      intro y hy
      have : 1 ≤ Wire.monthDays y 1 := by simp [Wire.monthDays]
      simp only [toLocalDate, localDateOf]
      rw [if_pos (by omega)]
    simp [dateGeLtArgs, h y (by omega), h (y + 1) (by omega)]
  · rw [(C33_meaning _ _ x).2.2.2.2, hx]
    simp only [Option.some.injEq, exists_eq_left']
    obtain ⟨-, h1, -, h2, -⟩ := hd
    have h1' : ∀ d a : Date, DateLt a d ∨ d = a ↔ ¬ DateLt d a := fun d a => by rw [not_dateLt]; tauto
    rw [h1']
    unfold DateLt
    dsimp only
    omega

theorem Clj.month_args {y m : Nat} (hy : y ≤ 9999) (h1 : 1 ≤ m) (h2 : m ≤ 12) : toLocalDate [.num y, .num m] = some ⟨y, m, 1⟩ := by
  have : 1 ≤ Wire.monthDays y m := by unfold Wire.monthDays; split <;> [split; split] <;> omega
  simp only [toLocalDate, localDateOf]
  rw [if_pos (by omega)]

/-- **C94**: a month, given by its number and that of the next one, is the days of that month; also December, if the next one is given as
January. -/
theorem C94_month (y m : Nat) (hy : y < 9999) (h1 : 1 ≤ m) (h2 : m ≤ 12) :
    ∃ f, dateGeLtArgs [.num y, .num m, .num (if m = 12 then y + 1 else y), .num (if m = 12 then 1 else m + 1)] = some f ∧
      ∀ x : Fields, ∀ d, x.date = some d → CalendarDate d → (f x = true ↔ d.y = y ∧ d.m = m) := by
  refine ⟨dateGeLt ⟨y, m, 1⟩ ⟨if m = 12 then y + 1 else y, if m = 12 then 1 else m + 1, 1⟩, ?_, fun x d hx hd => ?_⟩
  · simp only [dateGeLtArgs, month_args (y := y) (m := m) (by omega) h1 h2,
      month_args (y := if m = 12 then y + 1 else y) (m := if m = 12 then 1 else m + 1) (by split <;> omega) (by split <;> omega)
        (by split <;> omega)]
    rfl
  · rw [(C33_meaning _ _ x).2.2.2.2, hx]
    simp only [Option.some.injEq, exists_eq_left']
    obtain ⟨-, h1, h3, h2, -⟩ := hd
    have h1' : ∀ d a : Date, DateLt a d ∨ d = a ↔ ¬ DateLt d a := fun d a => by rw [not_dateLt]; tauto
    rw [h1']
    unfold DateLt
    dsimp only
    split <;> omega

/-- There is no thirteenth month, so December is not given like the other months: an exception. -/
theorem C94_december (y : Nat) : dateGeLtArgs [.num y, .num 12, .num y, .num 13] = none := by
  simp only [dateGeLtArgs, toLocalDate, localDateOf]
  rw [if_neg (c := y ≤ 999999999 ∧ 1 ≤ 13 ∧ _) (by omega)]
  split <;> rfl

/-- **C94**: a financial year has the days from April to March. -/
theorem C94_fy (year : Nat) (hy : year < 9999) :
    ∃ f, fy year = some f ∧ ∀ x : Fields, ∀ d, x.date = some d → CalendarDate d →
      (f x = true ↔ InFinancialYear (if year < 100 then 2000 + year else year) d) := by
  generalize he : (if year < 100 then 2000 + year else year) = z
  have hz : z < 9999 := by split at he <;> omega
  refine ⟨dateGeLt ⟨z, 4, 1⟩ ⟨z + 1, 4, 1⟩, ?_, fun x d hx hd => ?_⟩
  · have h : ∀ y, y ≤ 9999 → toLocalDate [.num y, .num 4, .num 1] = some ⟨y, 4, 1⟩ := by
      intro y hy
      have : 1 ≤ Wire.monthDays y 4 := by simp [Wire.monthDays]
      simp only [toLocalDate, localDateOf]
      rw [if_pos (by omega)]
    simp only [fy, he, dateGeLtArgs, h z (by omega), h (z + 1) (by omega)]
    rfl
  · rw [(C33_meaning _ _ x).2.2.2.2, hx]
    simp only [Option.some.injEq, exists_eq_left']
    obtain ⟨-, h1, h3, h2, -⟩ := hd
    have h1' : ∀ d a : Date, DateLt a d ∨ d = a ↔ ¬ DateLt d a := fun d a => by rw [not_dateLt]; tauto
    rw [h1']
    unfold DateLt InFinancialYear
    dsimp only
    omega

/-- **C94**: each day since April 100 is in exactly one financial year. -/
theorem C94_fy_unique (x : Fields) (d : Date) (hx : x.date = some d) (hd : CalendarDate d) (h1 : ¬ DateLt d ⟨100, 4, 1⟩)
    (h2 : DateLt d ⟨9999, 4, 1⟩) : ∃! year, 100 ≤ year ∧ year < 9999 ∧ ∃ f, fy year = some f ∧ f x = true := by
  have key : ∀ year, 100 ≤ year → year < 9999 → ((∃ f, fy year = some f ∧ f x = true) ↔ InFinancialYear year d) := by
    intro year ha hb
    obtain ⟨f, hf, h⟩ := C94_fy year hb
    rw [if_neg (by omega)] at h
    rw [hf, ← h x d hx hd]
    simp
  unfold DateLt at h1 h2
  dsimp only at h1 h2
  obtain ⟨-, -, -, hd1, -⟩ := hd
  have hz : ∃ z, 100 ≤ z ∧ z < 9999 ∧ InFinancialYear z d := by
    unfold InFinancialYear
    by_cases h4 : 4 ≤ d.m
    · exact ⟨d.y, by omega, by omega, by omega⟩
    · exact ⟨d.y - 1, by omega, by omega, by omega⟩
  obtain ⟨z, z1, z2, z3⟩ := hz
  refine ⟨z, ⟨z1, z2, (key z z1 z2).2 z3⟩, ?_⟩
  rintro year ⟨ha, hb, h⟩
  rw [key year ha hb] at h
  unfold InFinancialYear at h z3
  omega

/-- **C94**: a date may be given as such, as text, or by three numbers; a year stands for its first day, as does a month. -/
theorem C94_args {d : Date} (hd : CalendarDate d) :
    (∀ args ∈ [[.date d], [.text (Wire.fmtDate d)], [.num d.y, .num d.m, .num d.d]],
      dateLtArgs args = some (dateLt d) ∧ dateLeArgs args = some (dateLe d) ∧ dateGtArgs args = some (dateGt d) ∧
      dateGeArgs args = some (dateGe d)) ∧
    (d.d = 1 → toLocalDate [.num d.y, .num d.m] = some d) ∧ (d.d = 1 → d.m = 1 → toLocalDate [.num d.y] = some d) := by
  have hv := Wire.validDate_iff.2 hd
  have hv' := hv
  unfold Wire.validDate at hv'
  rw [decide_eq_true_iff] at hv'
  have h1 : toLocalDate [.num d.y, .num d.m, .num d.d] = some d := by
    simp only [toLocalDate, localDateOf]
    rw [if_pos (by omega)]
  refine ⟨fun args ha => ?_, fun h => ?_, fun h h' => ?_⟩
  · have : toLocalDate args = some d := by
      simp only [List.mem_cons, List.not_mem_nil, or_false] at ha
      rcases ha with rfl | rfl | rfl
      · rfl
      · exact Wire.parseDate_fmtDate hv
      · exact h1
    simp [dateLtArgs, dateLeArgs, dateGtArgs, dateGeArgs, this]
  · rw [← h1, h]
    rfl
  · rw [← h1, h, h']
    rfl

/-! ### Cases -/

/-- The year 2024 and its months, and the financial year 24. -/
example : Ascending ((List.range 12).map (fun m => ⟨2024, m + 1, 1⟩) ++ [⟨2025, 1, 1⟩]) ∧
    (periods ((List.range 12).map (fun m => (⟨2024, m + 1, 1⟩ : Date)) ++ [⟨2025, 1, 1⟩])).length = 12 ∧
    (fy 24).map (fun f => (f { date := some ⟨2025, 3, 31⟩ }, f { date := some ⟨2025, 4, 1⟩ }, f { date := some ⟨2024, 4, 1⟩ })) =
      some (true, false, true) := by
  decide +kernel

/-- The ledger of C01 in three periods: the first and the last are not empty. -/
example : Ascending [Toy.day 1, Toy.day 3, Toy.day 4, Toy.day 9] ∧
    ((periods [Toy.day 1, Toy.day 3, Toy.day 4, Toy.day 9]).mapM fun p =>
      inventory ⟨Ex.out, Toy.options, registryBuild id Ex.out (optionsMap Toy.options)⟩ [dateGeLt p.1 p.2]).map (·.map (·.keys)) =
        some [[Ex.bank, Ex.equity], [], [Ex.bank, Ex.current, Ex.equity, Ex.food]] := by
  decide +kernel

/-- It is in order of date, and its journal goes on on the third day. -/
example : (Ex.out.Pairwise fun x y => ¬ DateLt y.date x.date) ∧
    (journal ⟨Ex.out, Toy.options, registryBuild id Ex.out (optionsMap Toy.options)⟩ [dateLt (Toy.day 3)]).length = 2 ∧
    (journal ⟨Ex.out, Toy.options, registryBuild id Ex.out (optionsMap Toy.options)⟩ [dateGeLt (Toy.day 3) (Toy.day 9)]).length = 5 := by
  decide +kernel

end Limabean
