/-
C38: the registry's booking methods and currencies.
-/
import Verif.Props.C17
import Verif.Props.C34
import Verif.Proofs.RollupLemmas

namespace Limabean

open Spec Clj

/-- The methods which the open directives of an account give, in order. -/
def Spec.openMethods (acc : Str) (ds : List Booked.Directive) : List Booking :=
  ds.filterMap fun d => match d.variant with
    | .opn o => if o.acc = acc then o.booking else none
    | _ => none

/-- The number of postings in a currency. -/
def Spec.uses (cur : Str) (ds : List Booked.Directive) : Nat :=
  ((ds.flatMap fun d => match d.variant with
    | .transaction t => t.postings.map fun p => p.cur
    | _ => []).filter (fun c => c = cur)).length

namespace Clj

/-- One directive of the loop over methods. -/
def accsStep (m : AMap Str Booking) (d : Booked.Directive) : AMap Str Booking :=
  match d.variant with
  | .opn o => match o.booking with
    | some b => m.set o.acc b
    | none => m
  | _ => m

theorem registryAccs_eq (ds : List Booked.Directive) : registryAccs ds = ds.foldl accsStep [] := rfl

theorem registryAccs_get (ds : List Booked.Directive) (acc : Str) :
    (registryAccs ds).get acc = (openMethods acc ds).getLast? := by
  rw [registryAccs_eq]
  induction ds using List.reverseRecOn with
  | nil => rfl
  | append_singleton ds d ih =>
    rw [List.foldl_append, List.foldl_cons, List.foldl_nil]
    unfold openMethods at *
    rw [List.filterMap_append]
    unfold accsStep at *
    cases hv : d.variant with
    | opn o =>
      cases hb : o.booking with
      | none => simp [hv, hb, ih]
      | some b =>
        by_cases ha : o.acc = acc
        · simp [hv, hb, ha, AMap.get_set]
        · simp [hv, hb, ha, AMap.get_set, ih]
    | _ => simp [hv, ih]

/-- The methods of the open directives of an accepted ledger. -/
theorem openings_accepted {L : BookLib} {order : AMap Str (Account L) → AMap Str (Account L)} {o : BookOptions}
    (acc : Str) (ds : List Raw.Directive) : ∀ r, Run.loop (envOf L o order) 0 ds {} = some r → r.errors = [] →
    openMethods acc r.booked = match life ds acc with
      | .never => []
      | .opn op | .closed op => op.booking.toList := by
  intro r hl he
  have him := image_loop hl he
  have h1 : openMethods acc r.booked = ds.filterMap fun d => match d.variant with
      | .opn o => if o.acc = acc then o.booking else none
      | _ => none := by
    unfold openMethods
    generalize 0 = n at him
    clear hl he
    generalize r.booked = bs at him
    induction him with
    | nil => rfl
    | single hp hen hc _ ih =>
      rw [List.filterMap_cons, List.filterMap_cons, ih]
      generalize hx : (_ : Raw.Directive).variant = x at hc
      generalize hy : (_ : Booked.Directive).variant = y at hc
      cases hc <;> rfl
    | padded hp hen hc hen' ht _ ih =>
      obtain ⟨t, ht, -, -⟩ := ht
      rw [List.filterMap_cons, List.filterMap_cons, List.filterMap_cons, ih, ht]
      generalize hx : (_ : Raw.Directive).variant = x at hc
      generalize hy : (_ : Booked.Directive).variant = y at hc
      cases hc <;> rfl
  rw [h1]
  clear h1 him
  induction ds using List.reverseRecOn generalizing r with
  | nil => rfl
  | append_singleton ds d ih =>
    obtain ⟨r1, hl1, hs⟩ := Run.loop_snoc.1 hl
    have he1 := (errors_nil_of_step hs he).1
    rw [List.filterMap_append, ih r1 hl1 he1]
    have hlife : life (ds ++ [d]) acc = (life ds acc).next acc d.variant := by
      unfold life
      rw [List.foldl_append]
      rfl
    rw [hlife]
    cases hv : d.variant with
    | opn op =>
      by_cases ha : op.acc = acc
      · have hnever : life ds acc = .never := by
          have hes : errorsOf L order o (ds ++ [d]) = some [] := by simp [errorsOf, hl, he]
          have no : ∀ reason, ¬ AddsReport L order o ds d reason := by
            rintro reason ⟨es, rep, -, h, -⟩
            rw [hes] at h
            simp at h
          obtain ⟨-, h2, h3⟩ := C11_open L order o ds (by simp [errorsOf, hl1]) d op hv
          rw [ha] at h2 h3
          cases hl : life ds acc with
          | never => rfl
          | opn o' => exact absurd (h2 ⟨o', hl⟩) (no _)
          | closed o' =>
            rcases h3 ⟨o', hl⟩ with h | ⟨-, h⟩ <;> exact absurd h (no _)
        rw [hnever]
        cases hb : op.booking <;> simp [Life.next, ha, hv, hb]
      · cases hl : life ds acc <;> simp [Life.next, ha, hv]
    | close c =>
      cases hl : life ds acc with
      | opn o' => by_cases hc : c.acc = acc <;> simp [Life.next, hc, hv]
      | _ => simp [Life.next, hv]
    | _ => cases hl : life ds acc <;> simp [Life.next, hv]

theorem registryDefault_strict {lo : LedgerOptions} (h : OptionsNamed lo) : registryDefault (optionsMap lo) = .strict := by
  have : (optionsMap lo).find? (fun x => x.1 == str% "booking") = none := by
    rw [List.find?_eq_none]
    intro x hx
    rw [beq_iff_eq]
    have one : ∀ {α : Type} {k : Str} {o : Option α} {f : α → Json}, x ∈ Json.entry k o f → x.1 = k := by
      intro α k o f hx
      cases o with
      | none => cases hx
      | some a => rw [List.mem_singleton.1 hx]
    unfold optionsMap Wire.optionEntries at hx
    simp only [List.mem_append] at hx
    rcases hx with ((((((hx | hx) | hx) | hx) | hx) | hx) | hx) | hx
    · simp only [List.mem_cons, List.not_mem_nil, or_false] at hx
      rcases hx with rfl | rfl | rfl | rfl | rfl <;> (dsimp only; decide)
    iterate 6
      · rw [one hx]
        decide
    · intro e
      have := h x hx
      rw [e] at this
      revert this
      decide
  unfold registryDefault
  rw [this]
  rfl

end Clj

/-- C38, the registry takes the method of an account from the last open directive which names one. -/
theorem C38_from_open (order : AMap Str Nat → AMap Str Nat) (ds : List Booked.Directive) (options : List (Str × Json))
    (acc : Str) (b : Booking) (h : (openMethods acc ds).getLast? = some b) :
    (registryBuild order ds options).accBooking acc = b := by
  unfold Registry.accBooking registryBuild
  rw [registryAccs_get, h]
  rfl

/-- C38, restricted: reports use the method of an account which booking used, when its open directive names a supported one, or
names none and the option is absent or strict. What is missing: other options, C38_option_ignored; unsupported methods,
C38_unsupported. -/
theorem C38_agree_partial (L : BookLib) (hd : L.dflt = .strict) (order : AMap Str (Account L) → AMap Str (Account L))
    (o : BookOptions) (ds : List Raw.Directive) (out : List Booked.Directive) (w : List IndexedReport)
    (h : book L order o ds = .success out w) (lo : LedgerOptions) (hn : OptionsNamed lo)
    (order' : AMap Str Nat → AMap Str Nat) (acc : Str) (op : Raw.Open)
    (ho : life ds acc = .opn op ∨ life ds acc = .closed op)
    (hm : (∃ b, op.booking = some b ∧ L.supported b = true) ∨
      op.booking = none ∧ (o.bookingMethod = none ∨ o.bookingMethod = some .strict)) :
    (registryBuild order' out (optionsMap lo)).accBooking acc = methodAt L o.bookingMethod ds acc := by
  obtain ⟨r, hl, he, -, rfl, -⟩ := collect_success h
  have hop := openings_accepted acc ds r hl he
  have e1 : openMethods acc r.booked = op.booking.toList := by
    rw [hop]
    rcases ho with ho | ho <;> rw [ho]
  have e2 : methodAt L o.bookingMethod ds acc = method L o.bookingMethod op := by
    unfold methodAt
    rcases ho with ho | ho <;> rw [ho]
  unfold Registry.accBooking registryBuild
  rw [registryAccs_get, e1, e2, registryDefault_strict hn]
  unfold method
  rcases hm with ⟨b, hb, hs⟩ | ⟨hb, ho | ho⟩
  · simp [hb, hs]
  · simp [hb, ho, hd]
  · rw [hb, ho]
    by_cases hs : L.supported .strict = true <;> simp [hs, hd]

/-- C38 fails for other options: in every accepted ledger, an account whose open directive names no method is booked by the
method of the option, but the registry says strict. -/
theorem C38_option_ignored (L : BookLib) (order : AMap Str (Account L) → AMap Str (Account L))
    (o : BookOptions) (ds : List Raw.Directive) (out : List Booked.Directive) (w : List IndexedReport)
    (h : book L order o ds = .success out w) (lo : LedgerOptions) (hn : OptionsNamed lo)
    (b : Booking) (hb : o.bookingMethod = some b) (hs : L.supported b = true)
    (order' : AMap Str Nat → AMap Str Nat) (acc : Str) (op : Raw.Open)
    (ho : life ds acc = .opn op ∨ life ds acc = .closed op) (hno : op.booking = none) :
    methodAt L o.bookingMethod ds acc = b ∧ (registryBuild order' out (optionsMap lo)).accBooking acc = .strict := by
  obtain ⟨r, hl, he, -, rfl, -⟩ := collect_success h
  have hop := openings_accepted acc ds r hl he
  have e1 : openMethods acc r.booked = [] := by
    rw [hop]
    rcases ho with ho | ho <;> rw [ho] <;> simp [hno]
  constructor
  · unfold methodAt
    rcases ho with ho | ho <;> rw [ho] <;> simp [method, hno, hb, hs]
  · unfold Registry.accBooking registryBuild
    rw [registryAccs_get, e1, registryDefault_strict hn]
    rfl

/-- C38 fails for unsupported methods: an account opened with one is booked by the default of the library, but the registry
repeats the unsupported method. -/
theorem C38_unsupported (L : BookLib) (order : AMap Str (Account L) → AMap Str (Account L))
    (o : BookOptions) (ds : List Raw.Directive) (out : List Booked.Directive) (w : List IndexedReport)
    (h : book L order o ds = .success out w) (options : List (Str × Json))
    (order' : AMap Str Nat → AMap Str Nat) (acc : Str) (op : Raw.Open)
    (ho : life ds acc = .opn op ∨ life ds acc = .closed op) (b : Booking) (hb : op.booking = some b)
    (hs : L.supported b = false) :
    methodAt L o.bookingMethod ds acc = L.dflt ∧ (registryBuild order' out options).accBooking acc = b := by
  obtain ⟨r, hl, he, -, rfl, -⟩ := collect_success h
  have hop := openings_accepted acc ds r hl he
  have e1 : openMethods acc r.booked = [b] := by
    rw [hop]
    rcases ho with ho | ho <;> rw [ho] <;> simp [hb]
  constructor
  · unfold methodAt
    rcases ho with ho | ho <;> rw [ho] <;> simp [method, hb, hs]
  · unfold Registry.accBooking registryBuild
    rw [registryAccs_get, e1]
    rfl

namespace Clj

/-- Counting by key. -/
theorem countFold (l : List Str) (m : AMap Str Nat) (hm : m.WF) :
    (l.foldl (fun m c => m.set c ((m.get c).getD 0 + 1)) m).WF ∧
    ∀ c, (l.foldl (fun m c => m.set c ((m.get c).getD 0 + 1)) m).get c =
      if c ∈ l then some ((m.get c).getD 0 + (l.filter fun x => x = c).length) else m.get c := by
  induction l generalizing m with
  | nil => exact ⟨hm, by simp⟩
  | cons a l ih =>
    obtain ⟨h1, h2⟩ := ih (m.set a ((m.get a).getD 0 + 1)) (AMap.WF_set hm _ _)
    refine ⟨h1, fun c => ?_⟩
    rw [List.foldl_cons, h2, AMap.get_set]
    by_cases hc : a = c
    · subst hc
      simp only [if_true, Option.getD_some, List.mem_cons, true_or, List.filter_cons, decide_true, List.length_cons]
      by_cases hl : a ∈ l
      · rw [if_pos hl]; congr 1; omega
      · rw [if_neg hl]
        have : l.filter (fun x => x = a) = [] := by
          rw [List.filter_eq_nil_iff]
          intro x hx
          rw [decide_eq_true_iff]
          rintro rfl
          exact hl hx
        rw [this]
        simp
    · have : c ∈ a :: l ↔ c ∈ l := by simp [Ne.symm hc]
      rw [if_neg hc, List.filter_cons_of_neg (by rw [decide_eq_true_iff]; exact hc)]
      exact if_congr this.symm rfl rfl

/-- The currencies of the postings. -/
def postedCurs (ds : List Booked.Directive) : List Str :=
  ds.flatMap fun d => match d.variant with
    | .transaction t => t.postings.map fun p => p.cur
    | _ => []

theorem registryFreq_eq (ds : List Booked.Directive) :
    registryFreq ds = (postedCurs ds).foldl (fun (m : AMap Str Nat) c => m.set c ((m.get c).getD 0 + 1)) [] := by
  unfold registryFreq postedCurs
  rw [List.foldl_flatMap]
  congr 1
  funext m d
  cases d.variant with
  | transaction t => simp only [List.foldl_map]
  | _ => rfl

theorem insertFreq_sorted {a : Str × Nat} {l : List (Str × Nat)} (hl : l.Pairwise fun x y => y.2 ≤ x.2) :
    (insertBy cmpFreq a l).Pairwise fun x y => y.2 ≤ x.2 := by
  induction l with
  | nil => simp [insertBy]
  | cons b l ih =>
    rw [List.pairwise_cons] at hl
    simp only [insertBy]
    split
    · rename_i hab
      have hab' : b.2 ≤ a.2 := by
        unfold cmpFreq at hab
        rcases hab with hab | hab
        · exact le_of_lt (compare_lt_iff_lt.1 hab)
        · exact le_of_eq (compare_eq_iff_eq.1 hab)
      refine List.pairwise_cons.2 ⟨?_, List.pairwise_cons.2 hl⟩
      intro x hx
      rcases List.mem_cons.1 hx with rfl | hx
      · exact hab'
      · exact (hl.1 x hx).trans hab'
    · rename_i hab
      refine List.pairwise_cons.2 ⟨?_, ih hl.2⟩
      intro x hx
      rcases List.mem_cons.1 ((insertBy_perm a l).mem_iff.1 hx) with rfl | hx
      · unfold cmpFreq at hab
        rw [not_or, compare_lt_iff_lt, compare_eq_iff_eq] at hab
        omega
      · exact hl.1 x hx

theorem sortFreq_sorted (l : List (Str × Nat)) : (sortBy cmpFreq l).Pairwise fun x y => y.2 ≤ x.2 := by
  induction l with
  | nil => exact .nil
  | cons a l ih => exact insertFreq_sorted ih

end Clj

/-- C38: the currencies of the registry are those of the postings, each once, the most frequent first; whatever the iteration
order of maps. -/
theorem C38_currencies (order : AMap Str Nat → AMap Str Nat) (hf : ∀ m, (order m).Perm m) (ds : List Booked.Directive)
    (options : List (Str × Json)) :
    let curs := (registryBuild order ds options).curs
    curs.Nodup ∧ (∀ c, c ∈ curs ↔ uses c ds ≠ 0) ∧ curs.Pairwise fun a b => uses b ds ≤ uses a ds := by
  obtain ⟨h1, h2⟩ := countFold (postedCurs ds) [] AMap.WF_nil
  rw [← registryFreq_eq] at h1 h2
  have huses : ∀ c, uses c ds = ((postedCurs ds).filter fun x => x = c).length := fun c => rfl
  have hmem : ∀ c, c ∈ postedCurs ds ↔ uses c ds ≠ 0 := by
    intro c
    rw [huses, Ne, List.length_eq_zero_iff, List.filter_eq_nil_iff]
    simp
  have hval : ∀ x ∈ registryFreq ds, x.2 = uses x.1 ds := by
    rintro ⟨c, n⟩ hx
    have := AMap.get_of_mem h1 hx
    rw [h2] at this
    split at this
    · simp only [AMap.get_nil, Option.getD_none, zero_add, Option.some.injEq] at this
      exact this.symm
    · simp at this
  have hp := (sortBy_perm (cmp := cmpFreq) (order (registryFreq ds))).trans (hf _)
  refine ⟨?_, ?_, ?_⟩
  · exact (hp.map Prod.fst).nodup_iff.2 h1
  · intro c
    have : c ∈ (registryBuild order ds options).curs ↔ c ∈ (registryFreq ds).keys := (hp.map Prod.fst).mem_iff
    rw [this, AMap.mem_keys_iff, h2, ← hmem]
    by_cases hc : c ∈ postedCurs ds <;> simp [hc]
  · change ((sortBy cmpFreq (order (registryFreq ds))).map Prod.fst).Pairwise _
    rw [List.pairwise_map]
    refine List.Pairwise.imp_of_mem ?_ (sortFreq_sorted (order (registryFreq ds)))
    intro a b ha hb hab
    rw [← hval a (hp.mem_iff.1 ha), ← hval b (hp.mem_iff.1 hb)]
    exact hab

/-- A ledger with the option none, and an account which names no method. -/
example : ∃ out, book Toy.lib id { bookingMethod := some .none } Ex.ledger = .success out [] ∧
    methodAt Toy.lib (some .none) Ex.ledger Ex.food = .none ∧ methodAt Toy.lib (some .none) Ex.ledger Ex.bank2 = .fifo ∧
    OptionsNamed { Toy.options with bookingMethod := some .none } ∧
    (registryBuild id out (optionsMap { Toy.options with bookingMethod := some .none })).accBooking Ex.food = .strict ∧
    (registryBuild id out (optionsMap { Toy.options with bookingMethod := some .none })).accBooking Ex.bank2 = .fifo ∧
    (registryBuild id out []).curs = [Ex.nzd, Ex.usd] := by
  refine ⟨Ex.out, by decide +kernel, by decide +kernel, by decide +kernel, ?_, by decide +kernel, by decide +kernel,
    by decide +kernel⟩
  intro x hx
  simp [Toy.options] at hx

end Limabean
