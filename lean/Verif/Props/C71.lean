/-
C71: reports on a ledger which plugins have made after booking.

Plugins which work on booked directives are not the project's code, and the booked directives go straight into the reports. If they have
passed the checks of the front end, all reports can be made, unless an account has the booking method `average`, and inventories give
the sums of the units of all postings in the directives of the ledger.
-/
import Verif.Proofs.BeansLemmas
import Verif.Props.C34
import Verif.Props.C69
import Verif.Props.C70

namespace Limabean

open Spec Clj

variable {E : Ext} {L : BookLib}

namespace Spec

/-- The postings in the transactions of the ledger, each with its directive, in order. -/
def txnPostings (ys : List Data) : List (Data × Data) :=
  ys.flatMap fun y => match y.get (str% "dct") with
    | .kw k => if k = str% "txn" then (y.get (str% "postings")).elems.map fun q => (y, q) else []
    | _ => []

/-- Entry `k` of the posting, else of the directive. -/
def ownOr (x : Data × Data) (k : Str) : Data := if x.2.has k then x.2.get k else x.1.get k

/-- What filters see of a posting: its own account and currency; its own date, payee and narration if it has any, else those of the
directive. -/
def seenOf (x : Data × Data) : Fields :=
  { date := (ownOr x (str% "date")).date?
    acc := (x.2.get (str% "acc")).str?
    cur := (x.2.get (str% "cur")).str?
    payee := (ownOr x (str% "payee")).str?
    narration := (ownOr x (str% "narration")).str? }

/-- The postings which all filters accept. -/
def selectedPostings (fs : List Filter) (ys : List Data) : List (Data × Data) := (txnPostings ys).filter fun x => fs.all fun f => f (seenOf x)

/-- The account is opened with this booking method by one of the directives. -/
def OpenedWith (ys : List Data) (acc method : Str) : Prop :=
  ∃ y ∈ ys, y.get (str% "dct") = .kw (str% "open") ∧ y.get (str% "acc") = .str acc ∧ y.get (str% "booking") = .kw method

end Spec

namespace Clj

theorem postingMaps_pairs (ys : List Data) : postingMaps ys = (txnPostings ys).map fun x =>
    (x.1.selectKeys [str% "date", str% "payee", str% "narration"]).mergeMap x.2 := by
  induction ys with
  | nil => rfl
  | cons y ys ih =>
    rw [postingMaps_cons, ih, show txnPostings (y :: ys) = txnPostings [y] ++ txnPostings ys by simp [txnPostings], List.map_append]
    congr 1
    unfold txnPostings
    unfold postingMaps isKw
    rw [List.filter_cons]
    cases hd : y.get (str% "dct") with
    | kw k =>
      by_cases hk : k = str% "txn"
      · subst hk
        simp [hd, List.map_map, Function.comp_def]
      · simp [hd, hk]
    | _ => simp [hd]

theorem has_of_find {m v : Data} {k : Str} (h : m.find k = some v) : m.has k = true ∧ m.get k = v := by
  cases m with
  | map l =>
    simp only [Data.find] at h
    simp [Data.has, Data.get, h]
  | _ => cases h

theorem reqUn_get {m : Data} {k : Str} {p : Data → Bool} (h : reqUn m k p = true) : m.has k = true ∧ p (m.get k) = true := by
  unfold reqUn at h
  cases hf : m.find k with
  | none => rw [hf] at h; cases h
  | some v =>
    rw [hf] at h
    obtain ⟨h1, h2⟩ := has_of_find hf
    exact ⟨h1, by rwa [h2]⟩

theorem isStr_get {x : Data} (h : isStr x = true) : ∃ s, x = .str s := by
  cases x <;> first | exact ⟨_, rfl⟩ | cases h

theorem isNumber_get {x : Data} (h : isNumber x = true) : ∃ d, x = .num d := by
  cases x <;> first | exact ⟨_, rfl⟩ | cases h

theorem isDate_get {x : Data} (h : isDate x = true) : ∃ d, x = .date d := by
  cases x <;> first | exact ⟨_, rfl⟩ | cases h

/-- The checked cost can be read. -/
theorem isCost_costOf {x : Data} (h : isCost x = true) : (∃ l, x = .map l) ∧ ∃ c, costOf x = some c := by
  unfold isCost at h
  simp only [Bool.and_eq_true] at h
  obtain ⟨⟨⟨⟨⟨h1, h2⟩, h3⟩, h4⟩, -⟩, -⟩ := h
  refine ⟨?_, ?_⟩
  · cases x <;> first | exact ⟨_, rfl⟩ | cases h1
  · obtain ⟨a, ha⟩ := isNumber_get (reqUn_get h1).2
    obtain ⟨b, hb⟩ := isNumber_get (reqUn_get h2).2
    obtain ⟨c, hc⟩ := isStr_get (reqUn_get h3).2
    obtain ⟨d, hd⟩ := isDate_get (reqUn_get h4).2
    unfold costOf
    rw [ha, hb, hc, hd]
    exact ⟨_, rfl⟩

/-- What is read of a checked posting. -/
theorem booked_position {d q : Data} (h : isBookedPosting q = true) :
    ∃ p : Booked.Posting, accountPosition ((d.selectKeys [str% "date", str% "payee", str% "narration"]).mergeMap q) = some p ∧
      q.get (str% "acc") = .str p.acc ∧ q.get (str% "units") = .num p.units ∧ q.get (str% "cur") = .str p.cur := by
  unfold isBookedPosting at h
  simp only [Bool.and_eq_true] at h
  obtain ⟨⟨⟨⟨⟨⟨h1, h2⟩, h3⟩, -⟩, h5⟩, -⟩, -⟩ := h
  obtain ⟨-, hg⟩ := mergeMap_spec (selectKeys_wf d [str% "date", str% "payee", str% "narration"]) q
  obtain ⟨a1, a2⟩ := reqUn_get h1
  obtain ⟨b1, b2⟩ := reqUn_get h2
  obtain ⟨c1, c2⟩ := reqUn_get h3
  obtain ⟨a, ha⟩ := isStr_get a2
  obtain ⟨u, hu⟩ := isNumber_get b2
  obtain ⟨c, hc⟩ := isStr_get c2
  have hcost : ((d.selectKeys [str% "date", str% "payee", str% "narration"]).mergeMap q).get (str% "cost") = q.get (str% "cost") := by
    rw [hg]
    cases hh : q.has (str% "cost") with
    | true => rfl
    | false =>
      rw [get_of_not_has hh, get_selectKeys]
      rfl
  obtain ⟨k, hk⟩ : ∃ k, costEntry ((d.selectKeys [str% "date", str% "payee", str% "narration"]).mergeMap q) = some k := by
    unfold costEntry
    rw [hcost]
    unfold optUn at h5
    cases hf : q.find (str% "cost") with
    | none =>
      have : q.get (str% "cost") = .nil := by
        cases q with
        | map l => simp only [Data.find] at hf; simp [Data.get, hf]
        | _ => rfl
      rw [this]
      exact ⟨_, rfl⟩
    | some v =>
      rw [hf] at h5
      obtain ⟨⟨l, rfl⟩, k, hk⟩ := isCost_costOf h5
      rw [(has_of_find hf).2]
      exact ⟨some k, by simp [hk]⟩
  refine ⟨{ acc := a, units := u, cur := c, cost := k }, ?_, ha, hu, hc⟩
  unfold accountPosition positionOfMap
  rw [hk, hg, hg, hg, a1, b1, c1, if_pos rfl, if_pos rfl, if_pos rfl, ha, hu, hc]
  rfl

/-- The journal of a checked posting. -/
theorem booked_withoutCost {d q : Data} (h : isBookedPosting q = true) :
    ∃ p, positionOfMap (((d.selectKeys [str% "date", str% "payee", str% "narration"]).mergeMap q).dissoc (str% "cost")) = some p := by
  have hw := (mergeMap_spec (selectKeys_wf d [str% "date", str% "payee", str% "narration"]) q).1
  obtain ⟨p, hp, -⟩ := booked_position (d := d) h
  unfold accountPosition at hp
  unfold positionOfMap at hp ⊢
  unfold costEntry
  simp only [get_dissoc hw]
  rw [if_neg (by decide), if_neg (by decide), if_pos trivial]
  revert hp
  cases ((((d.selectKeys [str% "date", str% "payee", str% "narration"]).mergeMap q).get (str% "units")).num?) <;>
    cases ((((d.selectKeys [str% "date", str% "payee", str% "narration"]).mergeMap q).get (str% "cur")).str?) <;>
    cases ((((d.selectKeys [str% "date", str% "payee", str% "narration"]).mergeMap q).get (str% "acc")).str?) <;> simp

/-- The postings of checked directives are checked. -/
theorem txnPostings_valid {ys : List Data} (h : ∀ y ∈ ys, validDct false y = true) : ∀ x ∈ txnPostings ys, isBookedPosting x.2 = true := by
  intro x hx
  unfold txnPostings at hx
  obtain ⟨y, hy, hx⟩ := List.mem_flatMap.1 hx
  have hv := h y hy
  unfold validDct kindOk at hv
  simp only [Bool.and_eq_true] at hv
  obtain ⟨-, hk⟩ := hv
  cases hd : y.get (str% "dct") with
  | kw k =>
    rw [hd] at hx hk
    dsimp only at hx hk
    by_cases e : k = str% "txn"
    · rw [if_pos e] at hx hk
      obtain ⟨q, hq, rfl⟩ := List.mem_map.1 hx
      unfold isTxn at hk
      simp only [Bool.and_eq_true] at hk
      obtain ⟨-, hp⟩ := hk
      unfold optUn at hp
      cases hf : y.find (str% "postings") with
      | none =>
        exfalso
        have : y.get (str% "postings") = .nil := by
          cases y with
          | map l => simp only [Data.find] at hf; simp [Data.get, hf]
          | _ => rfl
        rw [this] at hq
        cases hq
      | some v =>
        rw [hf] at hp
        rw [(has_of_find hf).2] at hq
        unfold vectorOf at hp
        cases v <;> try cases hp
        simp only [List.all_eq_true, Bool.false_eq_true, if_false] at hp
        exact hp q hq
    · rw [if_neg e] at hx
      cases hx
  | _ => rw [hd] at hx; cases hx

/-- The filters see the merged map as they see the posting and its directive. -/
theorem fields_pair {x : Data × Data} (h : isBookedPosting x.2 = true) :
    fieldsOf ((x.1.selectKeys [str% "date", str% "payee", str% "narration"]).mergeMap x.2) = seenOf x := by
  obtain ⟨d, q⟩ := x
  unfold isBookedPosting at h
  simp only [Bool.and_eq_true] at h
  obtain ⟨⟨⟨⟨⟨⟨h1, h2⟩, h3⟩, -⟩, h5⟩, -⟩, -⟩ := h
  obtain ⟨-, hg⟩ := mergeMap_spec (selectKeys_wf d [str% "date", str% "payee", str% "narration"]) q
  unfold fieldsOf seenOf ownOr
  simp only [hg, get_selectKeys, (reqUn_get h1).1, (reqUn_get h3).1, if_true, List.mem_cons, true_or, or_true]

theorem selectedMaps_pairs {ys : List Data} (h : ∀ x ∈ txnPostings ys, isBookedPosting x.2 = true) (fs : List Filter) :
    selectedMaps fs ys = (selectedPostings fs ys).map fun x =>
      (x.1.selectKeys [str% "date", str% "payee", str% "narration"]).mergeMap x.2 := by
  unfold selectedMaps selectedPostings
  rw [postingMaps_pairs]
  generalize txnPostings ys = l at h ⊢
  have e : allOf fieldsOf fs (l.map fun x => (x.1.selectKeys [str% "date", str% "payee", str% "narration"]).mergeMap x.2) =
      (l.map fun x => (x.1.selectKeys [str% "date", str% "payee", str% "narration"]).mergeMap x.2).filter fun x => fs.all fun f => f (fieldsOf x) := by
    unfold allOf
    split
    · rename_i hf
      rw [List.isEmpty_iff] at hf
      subst hf
      simp
    · rfl
  rw [e]
  induction l with
  | nil => rfl
  | cons x l ih =>
    rw [List.map_cons, List.filter_cons, List.filter_cons, fields_pair (h x List.mem_cons_self),
      ih (fun y hy => h y (List.mem_cons_of_mem _ hy)) (by
        unfold allOf
        split
        · rename_i hf
          rw [List.isEmpty_iff] at hf
          subst hf
          simp
        · rfl)]
    split <;> rfl

theorem withBalOf_defined {l : List (Data × Data)} (h : ∀ x ∈ l, isBookedPosting x.2 = true) (s : Inv) :
    ∃ r, withBalOf s (l.map fun x => (x.1.selectKeys [str% "date", str% "payee", str% "narration"]).mergeMap x.2) = some r ∧ r.length = l.length := by
  induction l generalizing s with
  | nil => exact ⟨[], rfl, rfl⟩
  | cons x l ih =>
    obtain ⟨p, hp⟩ := booked_withoutCost (d := x.1) (h x List.mem_cons_self)
    obtain ⟨r, hr, hn⟩ := ih (fun y hy => h y (List.mem_cons_of_mem _ hy)) (s.accumulate p)
    rw [List.map_cons, withBalOf, hp]
    dsimp only
    rw [hr]
    exact ⟨_, rfl, by simp [hn]⟩

/-- The postings which the inventory is built of. -/
theorem positions_pairs {l : List (Data × Data)} (h : ∀ x ∈ l, isBookedPosting x.2 = true) :
    ∃ ps : List Booked.Posting, Json.all accountPosition
        (l.map fun x => (x.1.selectKeys [str% "date", str% "payee", str% "narration"]).mergeMap x.2) = some ps ∧
      List.Forall₂ (fun x p => x.2.get (str% "acc") = .str p.acc ∧ x.2.get (str% "units") = .num p.units ∧
        x.2.get (str% "cur") = .str p.cur) l ps := by
  induction l with
  | nil => exact ⟨[], rfl, .nil⟩
  | cons x l ih =>
    obtain ⟨p, hp, h1⟩ := booked_position (d := x.1) (h x List.mem_cons_self)
    obtain ⟨ps, hps, h2⟩ := ih fun y hy => h y (List.mem_cons_of_mem _ hy)
    exact ⟨p :: ps, by simp only [List.map_cons, Json.all, hp, hps], .cons h1 h2⟩

theorem registryAccsOf_mem {ys : List Data} {acc : Str} {v : Data} (h : (registryAccsOf ys).get acc = some v) :
    ∃ y ∈ ys, y.get (str% "dct") = .kw (str% "open") ∧ (y.get (str% "acc")).str?.getD [] = acc ∧ y.get (str% "booking") = v ∧
      (y.get (str% "booking")).truthy = true := by
  unfold registryAccsOf at h
  have key : ∀ (m : AMap Str Data), AMap.get (ys.foldl (fun m d =>
      if isKw (d.get (str% "dct")) (str% "open") && (d.get (str% "booking")).truthy then
        m.set (((d.get (str% "acc")).str?).getD []) (d.get (str% "booking")) else m) m) acc = some v →
      m.get acc = some v ∨ ∃ y ∈ ys, y.get (str% "dct") = .kw (str% "open") ∧ (y.get (str% "acc")).str?.getD [] = acc ∧
        y.get (str% "booking") = v ∧ (y.get (str% "booking")).truthy = true := by
    clear h
    induction ys with
    | nil => exact fun m h => .inl h
    | cons y ys ih =>
      intro m h
      rw [List.foldl_cons] at h
      rcases ih _ h with h' | ⟨z, hz, h'⟩
      · split at h'
        · rename_i hc
          rw [AMap.get_set] at h'
          split at h'
          · rename_i e
            simp only [Bool.and_eq_true] at hc
            refine .inr ⟨y, List.mem_cons_self, ?_, e, Option.some.inj h', hc.2⟩
            have := hc.1
            unfold isKw at this
            cases hd : y.get (str% "dct") with
            | kw k => rw [hd] at this; simp only [beq_iff_eq] at this; rw [this]
            | _ => rw [hd] at this; cases this
          · exact .inl h'
        · exact .inl h'
      · exact .inr ⟨z, List.mem_cons_of_mem _ hz, h'⟩
  rcases key [] h with h' | h'
  · cases h'
  · exact h'

theorem get_map_snd {V W : Type} (f : V → W) (m : AMap Str V) (k : Str) :
    AMap.get (m.map fun x => (x.1, f x.2)) k = (AMap.get m k).map f := get_map f m k

/-- A checked open directive with a booking method which is unsupported names `average`. -/
theorem open_average {y : Data} (h : validDct false y = true) (hd : y.get (str% "dct") = .kw (str% "open"))
    (hb : methodOf (y.get (str% "booking")) = .average) (ht : (y.get (str% "booking")).truthy = true) :
    y.get (str% "booking") = .kw (str% "average") ∧ ∃ a, y.get (str% "acc") = .str a := by
  unfold validDct kindOk at h
  rw [hd] at h
  dsimp only at h
  rw [if_neg (by decide), if_neg (by decide), if_neg (by decide), if_pos rfl] at h
  unfold isOpen at h
  simp only [Bool.and_eq_true] at h
  obtain ⟨-, ⟨⟨h1, -⟩, h3⟩, -⟩ := h
  refine ⟨?_, isStr_get (reqUn_get h1).2⟩
  have hv : isBooking (y.get (str% "booking")) = true := by
    unfold optUn at h3
    cases hf : y.find (str% "booking") with
    | none =>
      exfalso
      have : y.get (str% "booking") = .nil := by
        cases y with
        | map l => simp only [Data.find] at hf; simp [Data.get, hf]
        | _ => rfl
      rw [this] at ht
      cases ht
    | some v =>
      rw [hf] at h3
      rw [(has_of_find hf).2]
      exact h3
  unfold isBooking at hv
  cases hx : y.get (str% "booking") with
  | kw s =>
    rw [hx] at hv hb
    simp only [List.contains_eq_mem, List.mem_cons, List.not_mem_nil, or_false, decide_eq_true_eq] at hv
    rcases hv with rfl | rfl | rfl | rfl | rfl | rfl | rfl <;> first | rfl | exact absurd hb (by decide)
  | _ => rw [hx] at hv; cases hv

theorem average_opened {order : AMap Str Nat → AMap Str Nat} {ys : List Data} {options : Data} (ho : options.has (str% "booking") = false)
    (h : ∀ y ∈ ys, validDct false y = true) {acc : Str} (ha : methodOf (accBookingOf (registryOf order ys options) acc) = .average) :
    OpenedWith ys acc (str% "average") := by
  have h1 : ((registryOf order ys options).get (str% "accs")).get acc =
      (((registryAccsOf ys).get acc).map fun b => Data.map [(str% "booking", b)]).getD .nil := by
    show (Data.map ((registryAccsOf ys).map fun x => (x.1, Data.map [(str% "booking", x.2)]))).get acc = _
    simp only [Data.get]
    rw [get_map_snd (fun b => Data.map [(str% "booking", b)])]
  have h2 : (registryOf order ys options).get (str% "default-booking") = .kw (str% "strict") := by
    show (if options.has (str% "booking") then options.get (str% "booking") else .kw (str% "strict")) = _
    rw [ho]
    rfl
  unfold accBookingOf at ha
  rw [h1, h2] at ha
  cases hg : (registryAccsOf ys).get acc with
  | none =>
    rw [hg] at ha
    exact absurd ha (by decide)
  | some v =>
    rw [hg] at ha
    have hm : methodOf v = .average := ha
    obtain ⟨y, hy, hd, hacc, hv, ht⟩ := registryAccsOf_mem hg
    obtain ⟨hb, a, e⟩ := open_average (h y hy) hd (by rw [hv]; exact hm) ht
    refine ⟨y, hy, hd, ?_, hb⟩
    rw [e] at hacc ⊢
    rw [← hacc]
    rfl

/-- Reports on checked directives. -/
theorem reports_checked {m : LoadedBeans E} {ys : List Data} (hd : m.directives = some ys) (h : ∀ y ∈ ys, validDct false y = true)
    (fs : List Filter) :
    (∃ l, m.journal fs = some l ∧ l.length = (selectedPostings fs ys).length) ∧
    (m.inventory fs = none → ∃ x ∈ selectedPostings fs ys, ∃ acc, x.2.get (str% "acc") = .str acc ∧
      methodOf (accBookingOf (m.registry.getD .nil) acc) = .average) ∧
    ∀ inv, m.inventory fs = some inv → ∀ acc cur,
      totalUnits Position.units ((inv.get acc).getD []) (fun p => p.cur = cur) =
        totalUnits (fun x => ((x.2.get (str% "units")).num?).getD Dec.zero) (selectedPostings fs ys)
          (fun x => (x.2.get (str% "acc")).str? = some acc ∧ (x.2.get (str% "cur")).str? = some cur) := by
  have hv := txnPostings_valid h
  have hs := selectedMaps_pairs hv fs
  have hv' : ∀ x ∈ selectedPostings fs ys, isBookedPosting x.2 = true := fun x hx => hv x (List.mem_of_mem_filter hx)
  obtain ⟨ps, h1, h2⟩ := positions_pairs hv'
  unfold LoadedBeans.journal LoadedBeans.inventory
  rw [hd, Option.getD_some, hs, h1, Option.bind_some]
  refine ⟨withBalOf_defined hv' _, fun hn => ?_, fun inv hi acc cur => ?_⟩
  · obtain ⟨p, hp, ha⟩ := build_none.1 hn
    obtain ⟨x, hx, hxp⟩ := forall₂_right h2 hp
    exact ⟨x, hx, p.acc, hxp.1, ha⟩
  · rw [C29_conserved _ _ _ hi]
    unfold totalUnits
    clear hi h1 hv' hs
    generalize selectedPostings fs ys = l at h2
    induction h2 with
    | nil => rfl
    | @cons x p l ps hx _ ih =>
      rw [List.filter_cons, List.filter_cons]
      have e : ((x.2.get (str% "acc")).str? = some acc ∧ (x.2.get (str% "cur")).str? = some cur) ↔ (p.acc = acc ∧ p.cur = cur) := by
        rw [hx.1, hx.2.2]
        simp [Data.str?]
      have e' : ((x.2.get (str% "units")).num?).getD Dec.zero = p.units := by
        rw [hx.2.1]
        rfl
      by_cases hc : p.acc = acc ∧ p.cur = cur
      · rw [if_pos (by simpa using hc), if_pos (by simpa using e.2 hc), List.map_cons, List.map_cons, List.sum_cons, List.sum_cons, ih]
        exact congrArg (fun u : Dec => u.val + _) e'.symm
      · rw [if_neg (by simpa using hc), if_neg (by simpa using fun h => hc (e.1 h)), ih]

end Clj

/-- **C71.** Loading has ended without an error, and there are booked plugins, which may do anything. Then every posting of the ledger has
account, units and currency; journals can be made for all filters, with an entry for each selected posting; inventories can be made unless
a selected posting is in an account which is opened with the method `average`; and they give for each account and currency the sum of the
units of the selected postings. -/
theorem C71_reports (F : Front E L) (hinj : Function.Injective F.hash) (ho : IsMapOrder F.ordm) (hs : IsOrder F.ord) (hE : SpanStore E)
    (hL : DatesExist L) (hvalid : F.valid = validDct) (order : AMap Str Nat → AMap Str Nat)
    (hreg : F.registry = fun ds o => some (registryOf order ds o)) (src : E.Sources) {p : Parsed} (hp : OptionsOk p.options)
    (hon : OptionsNamed p.options) (hoo : (p.options.others.map Prod.fst).Nodup)
    (hd : ∀ d ∈ p.directives, DatesOk d) {m : LoadedBeans E} (h : loadBeanfile F (.ready src (.ok p)) = .ok m) (he : m.error = none)
    (hb : bookedPlugins F p m.options ≠ []) :
    ∃ ys, m.directives = some ys ∧
      (∀ x ∈ txnPostings ys, ∃ acc units cur, x.2.get (str% "acc") = .str acc ∧ x.2.get (str% "units") = .num units ∧
        x.2.get (str% "cur") = .str cur) ∧
      ∀ fs, (∃ l, m.journal fs = some l ∧ l.length = (selectedPostings fs ys).length) ∧
        (m.inventory fs = none → ∃ x ∈ selectedPostings fs ys, ∃ acc, x.2.get (str% "acc") = .str acc ∧ OpenedWith ys acc (str% "average")) ∧
        ∀ inv, m.inventory fs = some inv → ∀ acc cur,
          totalUnits Position.units ((inv.get acc).getD []) (fun p => p.cur = cur) =
            totalUnits (fun x => ((x.2.get (str% "units")).num?).getD Dec.zero) (selectedPostings fs ys)
              (fun x => (x.2.get (str% "acc")).str? = some acc ∧ (x.2.get (str% "cur")).str? = some cur) := by
  obtain ⟨src', k, xs, ds, out, w, bs, ys, -, -, -, -, -, -, h5, -, h7, h8, -, h10, -⟩ := ledger_stages F hinj ho hs hE hL src hp hd h he
  have hv := (h5 hvalid).2 hb
  have ob := (options_names hon hoo h10).2.2.2.2
  rw [hreg] at h8
  refine ⟨ys, h7, fun x hx => ?_, fun fs => ?_⟩
  · obtain ⟨q, -, a, b, c⟩ := booked_position (d := x.1) (txnPostings_valid hv x hx)
    exact ⟨_, _, _, a, b, c⟩
  · obtain ⟨a, b, c⟩ := reports_checked h7 hv fs
    refine ⟨a, fun hn => ?_, c⟩
    obtain ⟨x, hx, acc, e, ha⟩ := b hn
    rw [h8, Option.getD_some] at ha
    exact ⟨x, hx, acc, e, average_opened ob hv ha⟩

/-- C71 also for the other reports: balances and income statement are inventories with one more filter, for the names of the options of
the beanfile. -/
theorem C71_restrictions (F : Front E L) (hinj : Function.Injective F.hash) (ho : IsMapOrder F.ordm) (hs : IsOrder F.ord) (hE : SpanStore E)
    (hL : DatesExist L) (src : E.Sources) {p : Parsed} (hp : OptionsOk p.options)
    (hon : OptionsNamed p.options) (hoo : (p.options.others.map Prod.fst).Nodup)
    (hd : ∀ d ∈ p.directives, DatesOk d) {m : LoadedBeans E} (h : loadBeanfile F (.ready src (.ok p)) = .ok m) (he : m.error = none)
    (fs : List Filter) :
    m.balances fs = m.inventory (fs ++ [fun x => x.acc.any fun acc =>
      decide (Below p.options.nameAssets acc ∨ Below p.options.nameLiabilities acc)]) ∧
    m.incomeStatement fs = m.inventory (fs ++ [fun x => x.acc.any fun acc =>
      decide (Below p.options.nameIncome acc ∨ Below p.options.nameExpenses acc)]) := by
  obtain ⟨src', k, xs, ds, out, w, bs, ys, -, -, -, -, -, -, -, -, -, -, -, h10, -⟩ := ledger_stages F hinj ho hs hE hL src hp hd h he
  obtain ⟨o1, o2, o3, o4, -⟩ := options_names hon hoo h10
  have hf : ∀ a b, subAcc [a, b] = fun x => x.acc.any fun acc => decide (Below a acc ∨ Below b acc) := by
    intro a b
    funext x
    have := (C32_sub_acc [a, b] x).2
    rw [Bool.eq_iff_iff, this]
    cases x.acc with
    | none => simp
    | some acc => rw [Option.any_some, decide_eq_true_iff]; simp [Below]
  unfold LoadedBeans.balances LoadedBeans.incomeStatement LoadedBeans.below
  simp only [List.filterMap_cons, List.filterMap_nil, o1, o2, o3, o4, Data.str?, hf, and_self]

namespace Ex

/-- A plugin which passes directives on and adds some at the end. -/
def addingDcts (l : List Data) : Plugin where
  name := []
  step l := [.old (l.length - 1)]
  finish _ := l.map .new

/-- A transaction which a plugin makes: seven dollars more in the bank, with a cost. -/
def giftTxn : Data := .map [(str% "date", .date (Toy.day 7)), (str% "dct", .kw (str% "txn")), (str% "flag", .str (str% "*")),
  (str% "postings", .vec [.map [(str% "acc", .str bank), (str% "units", .num ⟨7, 0⟩), (str% "cur", .str usd),
    (str% "cost", .map [(str% "date", .date (Toy.day 7)), (str% "per-unit", .num ⟨15, 1⟩), (str% "total", .num ⟨105, 1⟩),
      (str% "cur", .str nzd)])]])]

/-- The bank opened with the method `average`. -/
def openAveraged : Data := .map [(str% "date", .date (Toy.day 1)), (str% "dct", .kw (str% "open")), (str% "acc", .str bank),
  (str% "booking", .kw (str% "average"))]

/-- A front end which checks and makes the registry, with a booked plugin which adds directives. -/
def addingDctsFront (l : List Data) : Front Toy.ext Toy.lib :=
  { reportingFront with valid := validDct, resolve := fun _ _ => (none, some (addingDcts l), none) }

/-- The inventory of what was loaded. -/
def inventoryOf (F : Front Toy.ext Toy.lib) (s : Server Toy.ext) : Option (List (Option (List (Str × List Position)))) :=
  reported F s fun m => [m.inventory []]

end Ex

/-- Non-vacuity of `C71_reports`: a plugin adds a transaction after booking; its posting is in the inventory, with its cost. Another adds
an open directive with the method `average`, and there is no inventory. The other hypotheses are those of C70. -/
example : (Ex.addingDctsFront [Ex.giftTxn]).valid = validDct ∧ ((Ex.addingDctsFront [Ex.giftTxn]).registry = fun ds o => some (registryOf id ds o)) ∧
    (∀ o, bookedPlugins (Ex.addingDctsFront [Ex.giftTxn]) { directives := Ex.lots, options := Toy.options, plugins := [(str% "passing", none)] } o ≠ []) ∧
    Ex.inventoryOf (Ex.addingDctsFront [Ex.giftTxn]) (Ex.withPlugin Ex.lots) = some [some [
      (Ex.bank, [⟨⟨-15, 0⟩, Ex.nzd, none⟩, ⟨⟨7, 0⟩, Ex.usd, some ⟨Toy.day 7, ⟨15, 1⟩, ⟨105, 1⟩, Ex.nzd, none, false⟩⟩]),
      (Ex.food, [⟨⟨15, 0⟩, Ex.nzd, none⟩])]] ∧
    Ex.inventoryOf (Ex.addingDctsFront [Ex.openAveraged]) (Ex.withPlugin Ex.lots) = some [none] :=
  ⟨rfl, rfl, fun _ => List.cons_ne_nil _ _, by decide +kernel, by decide +kernel⟩

end Limabean
