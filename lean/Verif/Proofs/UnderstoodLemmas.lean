/-
What the server reads of data which pass the front end's check.
-/
import Verif.Proofs.RoundTrip
import Verif.Proofs.DecodedLemmas
import Verif.Spec.Understood
import Verif.Clj.Valid

namespace Limabean
namespace Clj

open Json Spec

variable {ordm : List (Str × Json) → List (Str × Json)}

/-- Of data with `p`, the server reads those with `S`, and as what `P` says. -/
structure Reads {α : Type} (ordm : List (Str × Json) → List (Str × Json)) (p S : Data → Prop) (P : Data → α → Prop)
    (dec : Json → Option α) : Prop where
  is : ∀ {x a}, RealData x → p x → dec (toJson ordm x) = some a → P x a ∧ S x
  ex : ∀ {x}, RealData x → p x → S x → ∃ a, dec (toJson ordm x) = some a

theorem field_get {l : List (Str × Data)} (h : (l.map Prod.fst).Nodup) (k : Str) :
    Json.field (l.map (jsonEntry ordm)) k = some ((AMap.get l k).map (toJson ordm)) := by
  have hv : vals k (l.map (jsonEntry ordm)) = ((AMap.get l k).map (toJson ordm)).toList := by
    induction l with
    | nil => rfl
    | cons p l ih =>
      obtain ⟨a, b⟩ := p
      simp only [List.map_cons, List.nodup_cons] at h
      have ih := ih h.2
      simp only [vals, List.map_cons, jsonEntry, List.filterMap_cons, AMap.get] at ih ⊢
      by_cases e : a = k
      · subst e
        have : AMap.get l a = none := by
          cases hg : AMap.get l a with
          | none => rfl
          | some v => exact absurd (List.mem_map_of_mem (f := Prod.fst) (AMap.mem_of_get hg)) h.1
        simp only [if_true, Option.map_some, Option.toList_some]
        rw [this] at ih
        simpa using ih
      · simp only [e, if_false]
        exact ih
  unfold Json.field
  rw [hv]
  cases AMap.get l k <;> rfl

theorem real_get {l : List (Str × Data)} (h : RealData (.map l)) {k : Str} {v : Data} (hg : AMap.get l k = some v) : RealData v := by
  cases h with
  | map h1 h2 => exact h2 _ (AMap.mem_of_get hg)

theorem real_nodup {l : List (Str × Data)} (h : RealData (.map l)) : (l.map Prod.fst).Nodup := by
  cases h with
  | map h1 h2 => exact h1

theorem toJson_null {x : Data} (h : toJson ordm x = .null) : x = .nil := by
  cases x <;> simp [toJson] at h ⊢

/-- What an entry must satisfy, if it is there. -/
def Entry (l : List (Str × Data)) (k : Str) (p : Data → Prop) : Prop := ∀ v, AMap.get l k = some v → p v

theorem Entry.weak {l : List (Str × Data)} {k : Str} {p : Data → Prop} (h : Entry l k p) : Entry l k fun v => v ≠ .nil → p v :=
  fun v hv _ => h v hv

theorem entry_opt {l : List (Str × Data)} {k : Str} {p : Data → Bool} (h : optUn (.map l) k p = true) : Entry l k (p · = true) := by
  intro v hv
  simpa [optUn, Data.find, hv] using h

theorem entry_req {l : List (Str × Data)} {k : Str} {p : Data → Bool} (h : reqUn (.map l) k p = true) (hn : p .nil = false) :
    Entry l k (p · = true) ∧ (Data.map l).get k ≠ .nil := by
  cases hv : AMap.get l k with
  | none => simp [reqUn, Data.find, hv] at h
  | some v =>
    simp only [reqUn, Data.find, hv] at h
    refine ⟨fun w hw => by cases hv.symm.trans hw; exact h, ?_⟩
    simp only [Data.get, hv, Option.getD_some]
    rintro rfl
    rw [hn] at h
    cases h

section fields

variable {α : Type} {p S : Data → Prop} {P : Data → α → Prop} {dec : Json → Option α} {l : List (Str × Data)} {k : Str}

theorem opt_is (hr : Reads ordm p S P dec) (hs : S .nil) (h : RealData (.map l)) (hp : Entry l k fun v => v ≠ .nil → p v)
    {a : Option α} (ho : opt (l.map (jsonEntry ordm)) k dec = some a) : Maybe P ((Data.map l).get k) a ∧ S ((Data.map l).get k) := by
  unfold opt at ho
  rw [field_get (real_nodup h)] at ho
  cases hv : AMap.get l k with
  | none =>
    rw [hv] at ho
    cases ho
    simpa [Data.get, hv, Maybe] using hs
  | some v =>
    rw [hv] at ho
    simp only [Option.map_some] at ho
    have e : (Data.map l).get k = v := by simp [Data.get, hv]
    rw [e]
    by_cases hn : toJson ordm v = .null
    · rw [hn] at ho
      cases ho
      rw [toJson_null hn]
      exact ⟨rfl, hs⟩
    · have ho' : (dec (toJson ordm v)).map some = some a := by
        revert ho hn
        cases toJson ordm v <;> simp
      obtain ⟨b, hb, rfl⟩ := Option.map_eq_some_iff.1 ho'
      exact hr.is (real_get h hv) (hp v hv fun e => hn (by rw [e, toJson])) hb

theorem opt_ex (hr : Reads ordm p S P dec) (h : RealData (.map l)) (hp : Entry l k fun v => v ≠ .nil → p v) (hs : S ((Data.map l).get k)) :
    ∃ a, opt (l.map (jsonEntry ordm)) k dec = some a := by
  unfold opt
  rw [field_get (real_nodup h)]
  cases hv : AMap.get l k with
  | none => exact ⟨none, rfl⟩
  | some v =>
    have e : (Data.map l).get k = v := by simp [Data.get, hv]
    rw [e] at hs
    simp only [Option.map_some]
    by_cases hn : toJson ordm v = .null
    · rw [hn]
      exact ⟨none, rfl⟩
    · obtain ⟨b, hb⟩ := hr.ex (real_get h hv) (hp v hv fun e => hn (by rw [e, toJson])) hs
      refine ⟨some b, ?_⟩
      revert hb hn
      cases toJson ordm v <;> simp

theorem req_is (hr : Reads ordm p S P dec) (h : RealData (.map l)) (hp : Entry l k p) (hn : ¬ p .nil)
    {a : α} (ho : req (l.map (jsonEntry ordm)) k dec = some a) :
    P ((Data.map l).get k) a ∧ S ((Data.map l).get k) ∧ (Data.map l).get k ≠ .nil := by
  unfold req at ho
  rw [field_get (real_nodup h)] at ho
  cases hv : AMap.get l k with
  | none => rw [hv] at ho; cases ho
  | some v =>
    rw [hv] at ho
    have e : (Data.map l).get k = v := by simp [Data.get, hv]
    rw [e]
    obtain ⟨h1, h2⟩ := hr.is (real_get h hv) (hp v hv) ho
    exact ⟨h1, h2, fun e => hn (e ▸ hp v hv)⟩

theorem req_ex (hr : Reads ordm p S P dec) (h : RealData (.map l)) (hp : Entry l k p) (hs : S ((Data.map l).get k))
    (hn : (Data.map l).get k ≠ .nil) : ∃ a, req (l.map (jsonEntry ordm)) k dec = some a := by
  unfold req
  rw [field_get (real_nodup h)]
  cases hv : AMap.get l k with
  | none => exact absurd (by simp [Data.get, hv]) hn
  | some v =>
    have e : (Data.map l).get k = v := by simp [Data.get, hv]
    rw [e] at hs
    exact hr.ex (real_get h hv) (hp v hv) hs

end fields

/-- No condition. -/
def Any (_ : Data) : Prop := True

theorem reads_str : Reads ordm (isStr · = true) Any StrIs toStr := by
  constructor
  · intro x a _ h ha
    cases x <;> simp [isStr, toJson, toStr] at h ha
    exact ⟨by rw [ha]; rfl, trivial⟩
  · intro x _ h _
    cases x <;> simp [isStr, toJson, toStr] at h ⊢

theorem reads_ref : Reads ordm (isStr · = true) SendName StrIs toRef := by
  constructor
  · intro x a _ h ha
    cases x <;> simp [isStr, toJson, toRef] at h ha
    obtain ⟨h1, rfl⟩ := ha
    exact ⟨rfl, fun s hs => by cases hs; exact Wire.borrowable_iff.1 h1⟩
  · intro x _ h hs
    cases x <;> simp [isStr] at h
    exact ⟨_, by rw [strs_eq]; exact Wire.toRef_str (hs _ rfl)⟩

theorem isNumber_some {x : Data} (h : isNumber x = true) : ∃ n, x = .num n := by
  cases x <;> simp [isNumber, isDecimal, isInt] at h
  exact ⟨_, rfl⟩

theorem isDecimal_some {x : Data} (h : isDecimal x = true) : ∃ n, x = .num n := by
  cases x <;> simp [isDecimal] at h
  exact ⟨_, rfl⟩

theorem reads_num : Reads ordm (isNumber · = true) Any NumIs toDec := by
  constructor
  · intro x a _ h ha
    obtain ⟨n, rfl⟩ := isNumber_some h
    rw [nums_eq] at ha
    cases ha
    exact ⟨rfl, trivial⟩
  · intro x _ h _
    obtain ⟨n, rfl⟩ := isNumber_some h
    exact ⟨n, by rw [nums_eq]; rfl⟩

theorem reads_decimal : Reads ordm (isDecimal · = true) Any NumIs toDec := by
  constructor
  · intro x a _ h ha
    obtain ⟨n, rfl⟩ := isDecimal_some h
    rw [nums_eq] at ha
    cases ha
    exact ⟨rfl, trivial⟩
  · intro x _ h _
    obtain ⟨n, rfl⟩ := isDecimal_some h
    exact ⟨n, by rw [nums_eq]; rfl⟩

theorem reads_date : Reads ordm (isDate · = true) Any DateIs Wire.decDate := by
  have key : ∀ {d}, RealData (.date d) → Wire.decDate (toJson ordm (.date d)) = some d := by
    intro d h
    cases h with
    | date h => rw [dates_eq]; exact Wire.decDate_encDate (Wire.validDate_iff.2 h)
  constructor
  · intro x a hr h ha
    cases x <;> simp [isDate] at h
    rw [key hr] at ha
    cases ha
    exact ⟨rfl, trivial⟩
  · intro x hr h _
    cases x <;> simp [isDate] at h
    exact ⟨_, key hr⟩

theorem reads_span : Reads ordm (fun x => ∃ s, x = ofSpan s) Any SpanIs Wire.decSpan := by
  constructor
  · rintro x a _ ⟨s, rfl⟩ ha
    rw [spans_eq, Wire.decSpan_encSpan] at ha
    cases ha
    exact ⟨rfl, trivial⟩
  · rintro x _ ⟨s, rfl⟩ _
    exact ⟨s, by rw [spans_eq, Wire.decSpan_encSpan]⟩

theorem isBooking_some {x : Data} (h : isBooking x = true) : ∃ b, x = .kw (bookingName b) := by
  cases x <;> simp [isBooking] at h
  rcases h with h | h | h | h | h | h | h <;> subst h
  · exact ⟨.strict, rfl⟩
  · exact ⟨.strictWithSize, rfl⟩
  · exact ⟨.none, rfl⟩
  · exact ⟨.average, rfl⟩
  · exact ⟨.fifo, rfl⟩
  · exact ⟨.lifo, rfl⟩
  · exact ⟨.hifo, rfl⟩

theorem reads_booking : Reads ordm (isBooking · = true) Any BookingIs Wire.decBooking := by
  constructor
  · intro x a _ h ha
    obtain ⟨b, rfl⟩ := isBooking_some h
    rw [bookingName_eq, Wire.decBooking_encBooking] at ha
    cases ha
    exact ⟨rfl, trivial⟩
  · intro x _ h _
    obtain ⟨b, rfl⟩ := isBooking_some h
    exact ⟨b, by rw [bookingName_eq, Wire.decBooking_encBooking]⟩

theorem all_forall₂ {α β : Type} {f : α → Option β} {l : List α} {l' : List β} (h : Json.all f l = some l') :
    List.Forall₂ (fun a b => f a = some b) l l' := by
  induction l generalizing l' with
  | nil => cases h; exact .nil
  | cons a l ih =>
    rw [Json.all] at h
    split at h
    · rename_i b bs hb hbs
      cases h
      exact .cons hb (ih hbs)
    · cases h

theorem all_ex {α β : Type} {f : α → Option β} {l : List α} (h : ∀ a ∈ l, ∃ b, f a = some b) : ∃ l', Json.all f l = some l' :=
  ⟨_, all_of_some fun a ha => Option.isSome_iff_exists.2 (h a ha)⟩

theorem reads_list {α : Type} {p S : Data → Prop} {P : Data → α → Prop} {dec : Json → Option α} (hr : Reads ordm p S P dec) :
    Reads ordm (fun x => ∃ l, x = .vec l ∧ ∀ e ∈ l, p e) (fun x => ∀ e ∈ x.elems, S e) (VecIs P) (toList dec) := by
  constructor
  · rintro x a h ⟨l, rfl, hp⟩ ha
    cases h with
    | vec hl =>
      rw [toJson, toJsons_eq] at ha
      have hf := all_forall₂ (show Json.all dec (l.map (toJson ordm)) = some a from ha)
      rw [List.forall₂_map_left_iff] at hf
      have both : List.Forall₂ (fun x a => P x a ∧ S x) l a := by
        clear ha
        induction hf with
        | nil => exact .nil
        | cons h1 h2 ih =>
          exact .cons (hr.is (hl _ (by simp)) (hp _ (by simp)) h1) (ih (fun e he => hp e (by simp [he])) fun e he => hl e (by simp [he]))
      refine ⟨⟨l, rfl, both.imp fun _ _ h => h.1⟩, ?_⟩
      show ∀ e ∈ l, S e
      clear ha hf hl hp
      induction both with
      | nil => simp
      | cons h1 h2 ih =>
        intro e he
        rcases List.mem_cons.1 he with rfl | he
        · exact h1.2
        · exact ih e he
  · rintro x h ⟨l, rfl, hp⟩ hs
    cases h with
    | vec hl =>
      rw [toJson, toJsons_eq]
      refine all_ex (f := dec) fun j hj => ?_
      obtain ⟨e, he, rfl⟩ := List.mem_map.1 hj
      exact hr.ex (hl e he) (hp e he) (hs e he)

theorem reads_set : Reads ordm (setOf isStr · = true) SendNames SetIs Wire.decSet := by
  constructor
  · intro x a h hp ha
    cases x <;> simp [setOf] at hp
    rename_i l
    cases h with
    | set hl =>
      unfold Wire.decSet at ha
      obtain ⟨b, hb, rfl⟩ := Option.map_eq_some_iff.1 ha
      rw [toJson, toJsons_eq] at hb
      have hf := all_forall₂ (show Json.all toRef (l.map (toJson ordm)) = some b from hb)
      rw [List.forall₂_map_left_iff] at hf
      have both : List.Forall₂ (fun x a => x = .str a ∧ SendName x) l b := by
        clear ha hb
        induction hf with
        | nil => exact .nil
        | cons h1 h2 ih =>
          exact .cons (reads_ref.is (hl _ (by simp)) (hp _ (by simp)) h1) (ih (fun e he => hp e (by simp [he])) fun e he => hl e (by simp [he]))
      have e : l = b.map .str ∧ ∀ x ∈ l, SendName x := by
        clear ha hb hf hl hp
        induction both with
        | nil => simp
        | cons h1 h2 ih =>
          obtain ⟨rfl, h1⟩ := h1
          refine ⟨by simp [ih.1], ?_⟩
          intro e he
          rcases List.mem_cons.1 he with rfl | he
          · exact h1
          · exact ih.2 e he
      refine ⟨⟨l, rfl, List.nodup_dedup _, fun t => ?_⟩, e.2⟩
      rw [List.mem_dedup, e.1]
      simp
  · intro x h hp hs
    cases x <;> simp [setOf] at hp
    rename_i l
    cases h with
    | set hl =>
      have : ∃ b, Json.all toRef (l.map (toJson ordm)) = some b := by
        refine all_ex fun j hj => ?_
        obtain ⟨e, he, rfl⟩ := List.mem_map.1 hj
        exact reads_ref.ex (hl e he) (hp e he) (hs e he)
      obtain ⟨b, hb⟩ := this
      exact ⟨b.dedup, by rw [toJson, toJsons_eq, Wire.decSet]; simp [toList, hb]⟩

theorem get_one (k k' : Str) (v : Data) : (Data.map [(k, v)]).get k' = if k = k' then v else .nil := by
  by_cases h : k = k' <;> simp [Data.get, AMap.get, h]

theorem only_some {m : Data} {k : Str} {p : Data → Bool} (h : onlyEntry m k p = true) : ∃ v, m = .map [(k, v)] ∧ p v = true := by
  unfold onlyEntry at h
  split at h
  · simp only [Bool.and_eq_true, beq_iff_eq] at h
    obtain ⟨rfl, h⟩ := h
    exact ⟨_, rfl, h⟩
  · cases h

theorem sendMeta_str {k : Str} (hk : k ≠ str% "string") (hk' : k ≠ str% "units") {s : Str} :
    SendMeta (.map [(k, .str s)]) ↔ PlainName s := by
  constructor
  · intro h
    exact h.1 k hk s (by simp [get_one])
  · intro h
    refine ⟨fun k' _ t ht => ?_, fun n hn => ?_⟩
    · rw [get_one] at ht
      split at ht
      · cases ht; exact h
      · cases ht
    · simp only [Data.map.injEq, List.cons.injEq, Prod.mk.injEq] at hn
      exact hk' hn.1.1

theorem sendMeta_other {k : Str} {v : Data} (hv : ∀ s, v = .str s → k = str% "string") (hk' : k ≠ str% "units") : SendMeta (.map [(k, v)]) := by
  refine ⟨fun k' hk t ht => ?_, fun n hn => ?_⟩
  · rw [get_one] at ht
    split at ht
    · rename_i e
      exact absurd (e ▸ hv t ht) hk
    · cases ht
  · simp only [Data.map.injEq, List.cons.injEq, Prod.mk.injEq] at hn
    exact hk' hn.1.1

theorem json_one (ho : IsMapOrder ordm) (k : Str) (v : Data) : toJson ordm (.map [(k, v)]) = .obj [(k, toJson ordm v)] := by
  simp only [toJson, entriesToJson, order_one ho]

theorem isAmount_some {m : Data} (h : isAmount m = true) (hr : RealData m) :
    ∃ u c, m = .map [(str% "units", .num u), (str% "cur", .str c)] ∨ m = .map [(str% "cur", .str c), (str% "units", .num u)] := by
  simp only [isAmount, Bool.and_eq_true, beq_iff_eq] at h
  obtain ⟨⟨h1, h2⟩, h3⟩ := h
  match m, h3 with
  | .map [(k, v), (k', v')], _ =>
    have hn := real_nodup hr
    simp only [List.map_cons, List.map_nil, List.nodup_cons, List.mem_singleton, List.not_mem_nil, not_false_eq_true, List.nodup_nil,
      and_true] at hn
    have huc : (str% "units" : Str) ≠ str% "cur" := by decide
    by_cases e : k = str% "units"
    · subst e
      simp only [reqUn, Data.find, AMap.get, if_true] at h1
      by_cases e' : k' = str% "cur"
      · subst e'
        simp only [reqUn, Data.find, AMap.get, if_true, if_neg huc] at h2
        obtain ⟨n, rfl⟩ := isNumber_some h1
        cases v' <;> simp [isStr] at h2
        exact ⟨_, _, .inl rfl⟩
      · simp only [reqUn, Data.find, AMap.get, if_neg e', if_neg huc] at h2
        cases h2
    · simp only [reqUn, Data.find, AMap.get, if_neg e] at h1
      by_cases e' : k' = str% "units"
      · subst e'
        simp only [if_true] at h1
        by_cases e2 : k = str% "cur"
        · subst e2
          simp only [reqUn, Data.find, AMap.get, if_true] at h2
          obtain ⟨n, rfl⟩ := isNumber_some h1
          cases v <;> simp [isStr] at h2
          exact ⟨_, _, .inr rfl⟩
        · simp only [reqUn, Data.find, AMap.get, if_neg e2, if_neg huc] at h2
          cases h2
      · simp only [if_neg e'] at h1
        cases h1

theorem reads_meta (ho : IsMapOrder ordm) : Reads ordm (isMetavalue · = true) SendMeta MetaIs Wire.decMeta := by
  have main : ∀ {x}, RealData x → isMetavalue x = true →
      (∀ {a}, Wire.decMeta (toJson ordm x) = some a → MetaIs x a ∧ SendMeta x) ∧
      (SendMeta x → ∃ a, Wire.decMeta (toJson ordm x) = some a) := by
    intro x hr h
    have strs : ∀ (k : Str) (f : Str → MetaValue) (s : Str), k ≠ str% "string" → k ≠ str% "units" →
        (∀ s, ofMeta (f s) = .map [(k, .str s)]) → (∀ s, MetaIs (.map [(k, .str s)]) (f s)) →
        (∀ s, Wire.decMeta (.obj [(k, .str s)]) = (toRef (.str s)).map f) →
        (∀ {a}, Wire.decMeta (toJson ordm (.map [(k, .str s)])) = some a → MetaIs (.map [(k, .str s)]) a ∧ SendMeta (.map [(k, .str s)])) ∧
        (SendMeta (.map [(k, .str s)]) → ∃ a, Wire.decMeta (toJson ordm (.map [(k, .str s)])) = some a) := by
      intro k f s h1 h2 h3 h4 h5
      rw [json_one ho, strs_eq, h5, sendMeta_str h1 h2]
      constructor
      · intro a ha
        obtain ⟨t, ht, rfl⟩ := Option.map_eq_some_iff.1 ha
        simp only [toRef] at ht
        split at ht
        · cases ht
          exact ⟨h4 _, Wire.borrowable_iff.1 ‹_›⟩
        · cases ht
      · intro h
        exact ⟨f s, by rw [Wire.toRef_str h]; rfl⟩
    have others : ∀ (k : Str) (v : Data) (m : MetaValue), (∀ s, v = .str s → k = str% "string") → k ≠ str% "units" →
        MetaIs (.map [(k, v)]) m → Wire.decMeta (.obj [(k, toJson ordm v)]) = some m →
        (∀ {a}, Wire.decMeta (toJson ordm (.map [(k, v)])) = some a → MetaIs (.map [(k, v)]) a ∧ SendMeta (.map [(k, v)])) ∧
        (SendMeta (.map [(k, v)]) → ∃ a, Wire.decMeta (toJson ordm (.map [(k, v)])) = some a) := by
      intro k v m h1 h2 h3 h4
      rw [json_one ho, h4]
      refine ⟨fun ha => ?_, fun _ => ⟨m, rfl⟩⟩
      cases ha
      exact ⟨h3, sendMeta_other h1 h2⟩
    simp only [isMetavalue, Bool.or_eq_true] at h
    rcases h with (((((((((h | h) | h) | h) | h) | h) | h) | h) | h) | h) | h
    · obtain ⟨v, rfl, hv⟩ := only_some h
      cases v <;> simp [isStr] at hv
      exact strs _ .account _ (by decide) (by decide) (fun _ => rfl) (fun _ => rfl) (fun _ => rfl)
    · obtain ⟨u, c, hx⟩ := isAmount_some h hr
      have hm : MetaIs x (.amount u c) := by rcases hx with rfl | rfl <;> exact ⟨rfl, rfl⟩
      have hj : Wire.decMeta (toJson ordm x) = (toRef (.str c)).map (.amount u) := by
        have e1 : Wire.decMeta (.obj [(str% "units", .num u), (str% "cur", .str c)]) = (toRef (.str c)).map (.amount u) := by
          simp only [Wire.decMeta, toDec]
          cases toRef (.str c) <;> simp
        have e2 : Wire.decMeta (.obj [(str% "cur", .str c), (str% "units", .num u)]) = (toRef (.str c)).map (.amount u) := by
          simp only [Wire.decMeta, toDec]
          cases toRef (.str c) <;> simp
        rcases hx with rfl | rfl <;> simp only [toJson, entriesToJson]
        · rcases order_two ho (str% "units", Json.num u) (str% "cur", Json.str c) with e | e <;> rw [e] <;> assumption
        · rcases order_two ho (str% "cur", Json.str c) (str% "units", Json.num u) with e | e <;> rw [e] <;> assumption
      have hs : SendMeta x ↔ PlainName c := by
        constructor
        · intro h
          refine h.1 (str% "cur") (by decide) c ?_
          rcases hx with rfl | rfl <;> rfl
        · intro hpl
          refine ⟨fun k _ t ht => ?_, fun n hn => ?_⟩
          · rcases hx with rfl | rfl
            · simp only [Data.get, AMap.get] at ht
              split at ht
              · cases ht
              · split at ht
                · cases ht; exact hpl
                · cases ht
            · simp only [Data.get, AMap.get] at ht
              split at ht
              · cases ht; exact hpl
              · split at ht
                · cases ht
                · cases ht
          · rcases hx with rfl | rfl <;> simp at hn
      rw [hj, hs]
      constructor
      · intro a ha
        obtain ⟨t, ht, rfl⟩ := Option.map_eq_some_iff.1 ha
        simp only [toRef] at ht
        split at ht
        · cases ht
          exact ⟨hm, Wire.borrowable_iff.1 ‹_›⟩
        · cases ht
      · intro h
        exact ⟨_, by rw [Wire.toRef_str h]; rfl⟩
    · obtain ⟨v, rfl, hv⟩ := only_some h
      cases v <;> simp [isBool] at hv
      exact others _ _ (.bool _) (by simp) (by decide) rfl rfl
    · obtain ⟨v, rfl, hv⟩ := only_some h
      cases v <;> simp [isStr] at hv
      exact strs _ .currency _ (by decide) (by decide) (fun _ => rfl) (fun _ => rfl) (fun _ => rfl)
    · obtain ⟨v, rfl, hv⟩ := only_some h
      cases v <;> simp [isDate] at hv
      rename_i d
      have hd : CalendarDate d := by
        cases hr with
        | map _ h2 =>
          have := h2 _ (List.mem_singleton_self _)
          cases this with
          | date h => exact h
      exact others _ _ (.date d) (by simp) (by decide) rfl (Wire.decMeta_encMeta (v := .date d) hd)
    · obtain ⟨v, rfl, hv⟩ := only_some h
      cases v <;> simp [isStr] at hv
      exact strs _ .link _ (by decide) (by decide) (fun _ => rfl) (fun _ => rfl) (fun _ => rfl)
    · cases x <;> simp [isNil] at h
      refine ⟨fun ha => ?_, fun _ => ⟨.null, rfl⟩⟩
      rw [toJson] at ha
      cases ha
      exact ⟨rfl, fun _ _ _ h => (by cases h), fun _ h => (by cases h)⟩
    · obtain ⟨v, rfl, hv⟩ := only_some h
      obtain ⟨n, rfl⟩ := isNumber_some hv
      exact others _ _ (.number n) (by simp) (by decide) rfl rfl
    · obtain ⟨v, rfl, hv⟩ := only_some h
      cases v <;> simp [isStr] at hv
      exact others _ _ (.string _) (by simp) (by decide) rfl rfl
    · obtain ⟨v, rfl, hv⟩ := only_some h
      cases v <;> simp [isStr] at hv
      exact strs _ .tag _ (by decide) (by decide) (fun _ => rfl) (fun _ => rfl) (fun _ => rfl)
    · obtain ⟨v, rfl, hv⟩ := only_some h
      rw [json_one ho]
      refine ⟨fun ha => ?_, fun hs => absurd rfl (hs.2 v)⟩
      simp [Wire.decMeta] at ha
  exact ⟨fun hr h ha => (main hr h).1 ha, fun hr h hs => (main hr h).2 hs⟩

/-- An entry of a map which is read with borrowed keys. -/
def readEntry {α : Type} (dec : Json → Option α) (p : Str × Json) : Option (Str × α) :=
  if borrowable p.1 = true then (dec p.2).map fun a => (p.1, a) else none

theorem toMap_read {α : Type} (dec : Json → Option α) (L : List (Str × Json)) :
    toMap dec (.obj L) = (Json.all (readEntry dec) L).map inserted := by
  unfold toMap
  dsimp only
  congr 2
  funext p
  unfold readEntry
  cases borrowable p.1 <;> cases dec p.2 <;> rfl

theorem reads_metadata (ho : IsMapOrder ordm) : Reads ordm (isMetadata · = true) SendMetadata MetadataIs Wire.decMetadata := by
  have hf : ∀ {p q}, readEntry Wire.decMeta p = some q → p.1 = q.1 ∧ borrowable p.1 = true ∧ Wire.decMeta p.2 = some q.2 := by
    intro p q h
    unfold readEntry at h
    split at h
    · obtain ⟨a, ha, rfl⟩ := Option.map_eq_some_iff.1 h
      exact ⟨rfl, ‹_›, ha⟩
    · cases h
  constructor
  · intro x a hr h ha
    cases x <;> simp only [isMetadata, Bool.false_eq_true] at h
    rename_i l
    rw [List.all_eq_true] at h
    have hn := real_nodup hr
    have hrl : ∀ p ∈ l, RealData p.2 := by cases hr with | map _ h2 => exact h2
    rw [toJson, entriesToJson_eq, Wire.decMetadata, toMap_read] at ha
    obtain ⟨b, hb, rfl⟩ := Option.map_eq_some_iff.1 ha
    set L := ordm (l.map fun p => (p.1, toJson ordm p.2)) with hL
    have hperm : L.Perm (l.map fun p => (p.1, toJson ordm p.2)) := ho _
    have hall := all_forall₂ hb
    have hkeys : b.map Prod.fst = L.map Prod.fst := by
      clear_value L
      clear hb ha hperm hL
      induction hall with
      | nil => rfl
      | cons h1 h2 ih => simp [ih, (hf h1).1]
    have hLk : (L.map Prod.fst).Perm (l.map Prod.fst) := by
      have := hperm.map Prod.fst
      simpa [List.map_map, Function.comp_def] using this
    have hbn : (b.map Prod.fst).Nodup := by rw [hkeys]; exact hLk.nodup_iff.2 hn
    rw [Json.inserted_nodup hbn]
    have hmem : ∀ q ∈ b, ∃ v, (q.1, v) ∈ l ∧ borrowable q.1 = true ∧ Wire.decMeta (toJson ordm v) = some q.2 := by
      intro q hq
      obtain ⟨p, hp, hpq⟩ := Wire.all_mem hb q hq
      obtain ⟨h1, h2, h3⟩ := hf hpq
      obtain ⟨e, he, rfl⟩ := List.mem_map.1 (hperm.mem_iff.1 hp)
      exact ⟨e.2, by rw [← h1]; exact he, by rw [← h1]; exact h2, h3⟩
    have huniq : ∀ {k v w}, (k, v) ∈ l → (k, w) ∈ l → v = w := by
      intro k v w h1 h2
      have e1 := AMap.get_of_mem (m := l) hn h1
      have e2 := AMap.get_of_mem (m := l) hn h2
      rw [e1] at e2
      exact Option.some.inj e2
    refine ⟨⟨l, rfl, hbn, fun k => by rw [hkeys]; exact hLk.mem_iff, fun k v m hv hm => ?_⟩, ?_⟩
    · obtain ⟨w, hw, -, h3⟩ := hmem _ hm
      rw [huniq hv hw]
      exact ((reads_meta ho).is (hrl _ hw) (h _ hw) h3).1
    · rintro _ ⟨⟩ p hp
      have hk : p.1 ∈ b.map Prod.fst := by rw [hkeys]; exact hLk.mem_iff.2 (List.mem_map_of_mem hp)
      obtain ⟨q, hq, hqk⟩ := List.mem_map.1 hk
      obtain ⟨w, hw, h2, h3⟩ := hmem q hq
      rw [hqk] at hw h2
      have e : p.2 = w := huniq (k := p.1) hp hw
      rw [← e] at h3
      exact ⟨Wire.borrowable_iff.1 h2, ((reads_meta ho).is (hrl _ hp) (h _ hp) h3).2⟩
  · intro x hr h hs
    cases x <;> simp only [isMetadata, Bool.false_eq_true] at h
    rename_i l
    rw [List.all_eq_true] at h
    have hrl : ∀ p ∈ l, RealData p.2 := by cases hr with | map _ h2 => exact h2
    rw [toJson, entriesToJson_eq, Wire.decMetadata, toMap_read]
    have : ∃ b, Json.all (readEntry Wire.decMeta) (ordm (l.map fun p => (p.1, toJson ordm p.2))) = some b := by
      refine all_ex fun j hj => ?_
      obtain ⟨e, he, rfl⟩ := List.mem_map.1 ((ho _).mem_iff.1 hj)
      obtain ⟨h1, h2⟩ := hs l rfl e he
      obtain ⟨a, ha⟩ := (reads_meta ho).ex (hrl e he) (h e he) h2
      exact ⟨(e.1, a), by simp [readEntry, Wire.borrowable_iff.2 h1, ha]⟩
    obtain ⟨b, hb⟩ := this
    exact ⟨inserted b, by rw [hb]; rfl⟩

theorem sendName_nil : SendName .nil := fun _ h => by cases h

theorem sendNames_nil : SendNames .nil := fun _ h => by cases h

theorem sendMetadata_nil : SendMetadata .nil := fun _ h => by cases h

theorem sendCost_nil : SendCost .nil := sendName_nil

theorem isMap_some {x : Data} (h : isMap x = true) : ∃ l, x = .map l := by
  cases x <;> simp [isMap] at h
  exact ⟨_, rfl⟩

theorem reqUn_map {x : Data} {k : Str} {p : Data → Bool} (h : reqUn x k p = true) : ∃ l, x = .map l := by
  cases x <;> simp [reqUn, Data.find] at h
  exact ⟨_, rfl⟩

/-- The entry `merge`. -/
theorem merge_reads {l : List (Str × Data)} {k : Str} (h : RealData (.map l)) (hp : optUn (.map l) k isBool = true) :
    ∃ b, dfltFalse (l.map (jsonEntry ordm)) k = some b ∧ (b = true ↔ (Data.map l).get k = .bool true) := by
  unfold dfltFalse
  rw [field_get (real_nodup h)]
  cases hv : AMap.get l k with
  | none => exact ⟨false, rfl, by simp [Data.get, hv]⟩
  | some v =>
    have := entry_opt hp v hv
    cases v <;> simp [isBool] at this
    exact ⟨_, by simp [bools_eq]; rfl, by simp [Data.get, hv]⟩

theorem reads_costSpec (ho : IsMapOrder ordm) : Reads ordm (isCostSpec · = true) SendCost CostSpecIs Wire.decCostSpec := by
  constructor
  · intro x a hr h ha
    simp only [isCostSpec, Bool.and_eq_true] at h
    obtain ⟨⟨⟨⟨⟨⟨h0, h1⟩, h2⟩, h3⟩, h4⟩, h5⟩, h6⟩ := h
    obtain ⟨l, rfl⟩ := isMap_some h0
    rw [toJson, decCostSpec_congr (field_sent ho (real_nodup hr))] at ha
    simp only [Wire.decCostSpec, Option.bind_eq_bind, Option.bind_eq_some_iff] at ha
    obtain ⟨a1, e1, a2, e2, a3, e3, a4, e4, a5, e5, a6, e6, e⟩ := ha
    cases e
    obtain ⟨b, hb, hb'⟩ := merge_reads (ordm := ordm) hr h6
    rw [hb] at e6
    cases e6
    have f3 := opt_is reads_ref sendName_nil hr (entry_opt h3).weak e3
    exact ⟨⟨(by simp), (opt_is reads_num trivial hr (entry_opt h1).weak e1).1, (opt_is reads_num trivial hr (entry_opt h2).weak e2).1, f3.1,
      (opt_is reads_date trivial hr (entry_opt h4).weak e4).1, (opt_is reads_str trivial hr (entry_opt h5).weak e5).1, hb'⟩, f3.2⟩
  · intro x hr h hs
    simp only [isCostSpec, Bool.and_eq_true] at h
    obtain ⟨⟨⟨⟨⟨⟨h0, h1⟩, h2⟩, h3⟩, h4⟩, h5⟩, h6⟩ := h
    obtain ⟨l, rfl⟩ := isMap_some h0
    rw [toJson, decCostSpec_congr (field_sent ho (real_nodup hr))]
    obtain ⟨a1, e1⟩ := opt_ex (ordm := ordm) reads_num hr (entry_opt h1).weak trivial
    obtain ⟨a2, e2⟩ := opt_ex (ordm := ordm) reads_num hr (entry_opt h2).weak trivial
    obtain ⟨a3, e3⟩ := opt_ex (ordm := ordm) reads_ref hr (entry_opt h3).weak hs
    obtain ⟨a4, e4⟩ := opt_ex (ordm := ordm) reads_date hr (entry_opt h4).weak trivial
    obtain ⟨a5, e5⟩ := opt_ex (ordm := ordm) reads_str hr (entry_opt h5).weak trivial
    obtain ⟨a6, e6, -⟩ := merge_reads (ordm := ordm) hr h6
    exact ⟨_, by simp only [Wire.decCostSpec, e1, e2, e3, e4, e5, e6]; rfl⟩

theorem reads_priceSpec (ho : IsMapOrder ordm) : Reads ordm (isPriceSpec · = true) SendCost PriceSpecIs Wire.decPriceSpec := by
  constructor
  · intro x a hr h ha
    simp only [isPriceSpec, Bool.and_eq_true] at h
    obtain ⟨⟨⟨h0, h1⟩, h2⟩, h3⟩ := h
    obtain ⟨l, rfl⟩ := isMap_some h0
    rw [toJson, decPriceSpec_congr (field_sent ho (real_nodup hr))] at ha
    simp only [Wire.decPriceSpec, Option.bind_eq_bind, Option.bind_eq_some_iff] at ha
    obtain ⟨a1, e1, a2, e2, a3, e3, e⟩ := ha
    cases e
    have f3 := opt_is reads_ref sendName_nil hr (entry_opt h3).weak e3
    exact ⟨⟨(by simp), (opt_is reads_num trivial hr (entry_opt h1).weak e1).1, (opt_is reads_num trivial hr (entry_opt h2).weak e2).1, f3.1⟩, f3.2⟩
  · intro x hr h hs
    simp only [isPriceSpec, Bool.and_eq_true] at h
    obtain ⟨⟨⟨h0, h1⟩, h2⟩, h3⟩ := h
    obtain ⟨l, rfl⟩ := isMap_some h0
    rw [toJson, decPriceSpec_congr (field_sent ho (real_nodup hr))]
    obtain ⟨a1, e1⟩ := opt_ex (ordm := ordm) reads_num hr (entry_opt h1).weak trivial
    obtain ⟨a2, e2⟩ := opt_ex (ordm := ordm) reads_num hr (entry_opt h2).weak trivial
    obtain ⟨a3, e3⟩ := opt_ex (ordm := ordm) reads_ref hr (entry_opt h3).weak hs
    exact ⟨_, by simp only [Wire.decPriceSpec, e1, e2, e3]; rfl⟩

theorem reads_price (ho : IsMapOrder ordm) : Reads ordm (isPrice · = true) SendCost PriceIs Wire.decPrice := by
  constructor
  · intro x a hr h ha
    simp only [isPrice, Bool.and_eq_true] at h
    obtain ⟨⟨h1, h3⟩, h2⟩ := h
    obtain ⟨l, rfl⟩ := reqUn_map h1
    rw [toJson, decPrice_congr (field_sent ho (real_nodup hr))] at ha
    simp only [Wire.decPrice, Option.bind_eq_bind, Option.bind_eq_some_iff] at ha
    obtain ⟨a1, e1, a2, e2, a3, e3, e⟩ := ha
    cases e
    have f3 := req_is reads_ref hr (entry_req h3 rfl).1 (by simp [isStr]) e3
    exact ⟨⟨(req_is reads_num hr (entry_req h1 rfl).1 (by simp [isNumber, isDecimal, isInt]) e1).1,
      (opt_is reads_num trivial hr (entry_opt h2).weak e2).1, f3.1⟩, f3.2.1⟩
  · intro x hr h hs
    simp only [isPrice, Bool.and_eq_true] at h
    obtain ⟨⟨h1, h3⟩, h2⟩ := h
    obtain ⟨l, rfl⟩ := reqUn_map h1
    rw [toJson, decPrice_congr (field_sent ho (real_nodup hr))]
    obtain ⟨a1, e1⟩ := req_ex (ordm := ordm) reads_num hr (entry_req h1 rfl).1 trivial (entry_req h1 rfl).2
    obtain ⟨a2, e2⟩ := opt_ex (ordm := ordm) reads_num hr (entry_opt h2).weak trivial
    obtain ⟨a3, e3⟩ := req_ex (ordm := ordm) reads_ref hr (entry_req h3 rfl).1 hs (entry_req h3 rfl).2
    exact ⟨_, by simp only [Wire.decPrice, e1, e2, e3]; rfl⟩

theorem entry_span {l : List (Str × Data)} (h : SpanKept (.map l)) : Entry l (str% "span") fun v => v ≠ .nil → ∃ s, v = ofSpan s := by
  intro v hv hn
  have e : (Data.map l).get (str% "span") = v := by simp [Data.get, hv]
  rcases h with h | h
  · exact absurd (e.symm.trans h) hn
  · rwa [e] at h

/-- Tags, links and metadata. -/
theorem attached_is (ho : IsMapOrder ordm) {l : List (Str × Data)} (hr : RealData (.map l)) (h : attachedOk (.map l) = true)
    {a1 a2 : Option (List Str)} {a3 : Option (List (Str × MetaValue))}
    (e1 : opt (l.map (jsonEntry ordm)) (str% "tags") Wire.decSet = some a1)
    (e2 : opt (l.map (jsonEntry ordm)) (str% "links") Wire.decSet = some a2)
    (e3 : opt (l.map (jsonEntry ordm)) (str% "metadata") Wire.decMetadata = some a3) :
    AttachedIs (.map l) a1 a2 a3 ∧ SendAttached (.map l) := by
  simp only [attachedOk, Bool.and_eq_true] at h
  obtain ⟨⟨h1, h2⟩, h3⟩ := h
  have f1 := opt_is reads_set sendNames_nil hr (entry_opt h1).weak e1
  have f2 := opt_is reads_set sendNames_nil hr (entry_opt h2).weak e2
  have f3 := opt_is (reads_metadata ho) sendMetadata_nil hr (entry_opt h3).weak e3
  exact ⟨⟨f1.1, f2.1, f3.1⟩, f1.2, f2.2, f3.2⟩

theorem attached_ex (ho : IsMapOrder ordm) {l : List (Str × Data)} (hr : RealData (.map l)) (h : attachedOk (.map l) = true)
    (hs : SendAttached (.map l)) :
    (∃ a, opt (l.map (jsonEntry ordm)) (str% "tags") Wire.decSet = some a) ∧
    (∃ a, opt (l.map (jsonEntry ordm)) (str% "links") Wire.decSet = some a) ∧
    ∃ a, opt (l.map (jsonEntry ordm)) (str% "metadata") Wire.decMetadata = some a := by
  simp only [attachedOk, Bool.and_eq_true] at h
  obtain ⟨⟨h1, h2⟩, h3⟩ := h
  exact ⟨opt_ex reads_set hr (entry_opt h1).weak hs.1, opt_ex reads_set hr (entry_opt h2).weak hs.2.1,
    opt_ex (reads_metadata ho) hr (entry_opt h3).weak hs.2.2⟩

theorem reads_posting (ho : IsMapOrder ordm) :
    Reads ordm (fun x => isRawPosting x = true ∧ SpanKept x) SendPosting PostingIs Wire.decPosting := by
  constructor
  · rintro x a hr ⟨h, hk⟩ ha
    simp only [isRawPosting, Bool.and_eq_true] at h
    obtain ⟨⟨⟨⟨⟨⟨⟨h0, h1⟩, h2⟩, h3⟩, h4⟩, h5⟩, h6⟩, h7⟩ := h
    obtain ⟨l, rfl⟩ := isMap_some h0
    rw [toJson, decPosting_congr (field_sent ho (real_nodup hr))] at ha
    simp only [Wire.decPosting, Option.bind_eq_bind, Option.bind_eq_some_iff] at ha
    obtain ⟨a0, e0, a1, e1, a2, e2, a3, e3, a4, e4, a5, e5, a6, e6, a7, e7, a8, e8, a9, e9, e⟩ := ha
    cases e
    have f2 := req_is reads_ref hr (entry_opt h2) (by simp [isStr]) e2
    have f4 := opt_is reads_ref sendName_nil hr (entry_opt h4).weak e4
    have f5 := opt_is (reads_costSpec ho) sendCost_nil hr (entry_opt h5).weak e5
    have f6 := opt_is (reads_priceSpec ho) sendCost_nil hr (entry_opt h6).weak e6
    have f7 := attached_is ho hr h7 e7 e8 e9
    exact ⟨⟨(opt_is reads_span trivial hr (entry_span hk) e0).1, (opt_is reads_str trivial hr (entry_opt h1).weak e1).1, f2.1,
      (opt_is reads_num trivial hr (entry_opt h3).weak e3).1, f4.1, f5.1, f6.1, f7.1⟩, f2.2.2, f2.2.1, f4.2, f5.2, f6.2, f7.2⟩
  · rintro x hr ⟨h, hk⟩ ⟨s1, s2, s3, s4, s5, s6⟩
    simp only [isRawPosting, Bool.and_eq_true] at h
    obtain ⟨⟨⟨⟨⟨⟨⟨h0, h1⟩, h2⟩, h3⟩, h4⟩, h5⟩, h6⟩, h7⟩ := h
    obtain ⟨l, rfl⟩ := isMap_some h0
    rw [toJson, decPosting_congr (field_sent ho (real_nodup hr))]
    obtain ⟨a0, e0⟩ := opt_ex (ordm := ordm) reads_span hr (entry_span hk) trivial
    obtain ⟨a1, e1⟩ := opt_ex (ordm := ordm) reads_str hr (entry_opt h1).weak trivial
    obtain ⟨a2, e2⟩ := req_ex (ordm := ordm) reads_ref hr (entry_opt h2) s2 s1
    obtain ⟨a3, e3⟩ := opt_ex (ordm := ordm) reads_num hr (entry_opt h3).weak trivial
    obtain ⟨a4, e4⟩ := opt_ex (ordm := ordm) reads_ref hr (entry_opt h4).weak s3
    obtain ⟨a5, e5⟩ := opt_ex (reads_costSpec ho) hr (entry_opt h5).weak s4
    obtain ⟨a6, e6⟩ := opt_ex (reads_priceSpec ho) hr (entry_opt h6).weak s5
    obtain ⟨⟨a7, e7⟩, ⟨a8, e8⟩, ⟨a9, e9⟩⟩ := attached_ex ho hr h7 s6
    exact ⟨_, by simp only [Wire.decPosting, e0, e1, e2, e3, e4, e5, e6, e7, e8, e9]; rfl⟩

theorem vectorOf_some {p : Data → Bool} {x : Data} (h : vectorOf p x = true) : ∃ l, x = .vec l ∧ ∀ e ∈ l, p e = true := by
  cases x <;> simp [vectorOf] at h
  exact ⟨_, rfl, h⟩

theorem dct_reads {l : List (Str × Data)} (hr : RealData (.map l)) (h : kindOk true (.map l) = true) :
    (∃ kind, (Data.map l).get (str% "dct") = .kw kind ∧ req (l.map (jsonEntry ordm)) (str% "dct") toStr = some kind) ∨
    ((Data.map l).get (str% "dct") = .nil ∧ req (l.map (jsonEntry ordm)) (str% "dct") toStr = none) := by
  unfold req
  rw [field_get (real_nodup hr)]
  cases hv : AMap.get l (str% "dct") with
  | none => exact .inr ⟨by simp [Data.get, hv], rfl⟩
  | some v =>
    have e : (Data.map l).get (str% "dct") = v := by simp [Data.get, hv]
    rw [e]
    unfold kindOk at h
    rw [e] at h
    cases v with
    | kw s => exact .inl ⟨s, rfl, by simp [toJson, toStr]⟩
    | nil => exact .inr ⟨rfl, by simp [toJson, toStr]⟩
    | _ => cases h

theorem sendKind_names {kind : Str} {x : Data} (h : ∀ k ∈ namesOfKind kind, SendName (x.get k))
    (hk : kind ∉ [str% "txn", str% "price", str% "open", str% "custom"]) : SendKind kind x := by
  simp only [List.mem_cons, List.not_mem_nil, or_false, not_or] at hk
  exact ⟨h, fun e => absurd e hk.1, fun e => absurd e hk.2.1, fun e => absurd e hk.2.2.1, fun e => absurd e hk.2.2.2⟩

theorem notStr_nil : ¬ isStr .nil = true := by simp [isStr]

theorem notNum_nil : ¬ isNumber .nil = true := by simp [isNumber, isDecimal, isInt]

theorem notPrice_nil : ¬ isPrice .nil = true := by simp [isPrice, reqUn, Data.find]

/-- Postings which the server reads. -/
theorem reads_postings (ho : IsMapOrder ordm) : Reads ordm (fun x => ∃ l, x = .vec l ∧ ∀ e ∈ l, isRawPosting e = true ∧ SpanKept e)
    (fun x => ∀ p ∈ x.elems, SendPosting p) (VecIs PostingIs) (toList Wire.decPosting) := reads_list (reads_posting ho)

theorem entry_postings {l : List (Str × Data)} (h : optUn (.map l) (str% "postings") (vectorOf isRawPosting) = true)
    (hk : ∀ p ∈ ((Data.map l).get (str% "postings")).elems, SpanKept p) :
    Entry l (str% "postings") fun x => ∃ l, x = .vec l ∧ ∀ e ∈ l, isRawPosting e = true ∧ SpanKept e := by
  intro v hv
  obtain ⟨es, rfl, hes⟩ := vectorOf_some (entry_opt h v hv)
  have e : (Data.map l).get (str% "postings") = .vec es := by simp [Data.get, hv]
  rw [e] at hk
  exact ⟨es, rfl, fun x hx => ⟨hes x hx, hk x hx⟩⟩

theorem entry_values {l : List (Str × Data)} (h : reqUn (.map l) (str% "values") (vectorOf isMetavalue) = true) :
    (Entry l (str% "values") fun x => ∃ l, x = .vec l ∧ ∀ e ∈ l, isMetavalue e = true) ∧ (Data.map l).get (str% "values") ≠ .nil := by
  obtain ⟨h1, h2⟩ := entry_req h rfl
  exact ⟨fun v hv => vectorOf_some (h1 v hv), h2⟩

theorem notVec_nil {p : Data → Prop} : ¬ ∃ l, Data.nil = .vec l ∧ ∀ e ∈ l, p e := by
  rintro ⟨_, h, -⟩
  cases h

/-- The part of a directive which depends on its kind. -/
theorem variant_reads (ho : IsMapOrder ordm) {l : List (Str × Data)} (hr : RealData (.map l))
    (hk : ∀ p ∈ ((Data.map l).get (str% "postings")).elems, SpanKept p) (h : kindOk true (.map l) = true) :
    (∀ v, Wire.decVariant (l.map (jsonEntry ordm)) = some v →
      VariantIs (.map l) v ∧ ∃ kind, (Data.map l).get (str% "dct") = .kw kind ∧ SendKind kind (.map l)) ∧
    ((∃ kind, (Data.map l).get (str% "dct") = .kw kind ∧ SendKind kind (.map l)) →
      ∃ v, Wire.decVariant (l.map (jsonEntry ordm)) = some v) := by
  rcases dct_reads (ordm := ordm) hr h with ⟨kind, hd, hq⟩ | ⟨hd, hq⟩
  swap
  · constructor
    · intro v hv
      unfold Wire.decVariant at hv
      rw [hq] at hv
      cases hv
    · rintro ⟨kind, hkind, -⟩
      rw [hd] at hkind
      cases hkind
  have one : ∀ {P : Str → Prop}, (∃ kind', (Data.map l).get (str% "dct") = .kw kind' ∧ P kind') ↔ P kind := by
    intro P
    rw [hd]
    constructor
    · rintro ⟨k, e, h⟩
      cases e
      exact h
    · intro h
      exact ⟨kind, rfl, h⟩
  rw [one]
  unfold Wire.decVariant
  rw [hq]
  unfold kindOk at h
  rw [hd] at h
  dsimp only at h ⊢
  by_cases c : kind = str% "txn"
  · subst c
    rw [if_pos rfl] at h
    rw [if_pos rfl]
    simp only [isTxn, if_true, Bool.and_eq_true] at h
    obtain ⟨⟨⟨h1, h2⟩, h3⟩, h4⟩ := h
    constructor
    · intro v hv
      obtain ⟨a1, e1, hv⟩ := Option.bind_eq_some_iff.1 hv
      obtain ⟨a2, e2, hv⟩ := Option.bind_eq_some_iff.1 hv
      obtain ⟨a3, e3, hv⟩ := Option.bind_eq_some_iff.1 hv
      obtain ⟨a4, e4, hv⟩ := Option.bind_eq_some_iff.1 hv
      cases hv
      have f4 := req_is (reads_postings ho) hr (entry_postings h4 hk) notVec_nil e4
      exact ⟨⟨hd, (req_is reads_str hr (entry_req h1 rfl).1 notStr_nil e1).1, (opt_is reads_str trivial hr (entry_opt h2).weak e2).1,
        (opt_is reads_str trivial hr (entry_opt h3).weak e3).1, f4.1⟩,
        ⟨by simp [namesOfKind], fun _ => ⟨f4.2.2, f4.2.1⟩, by simp, by simp, by simp⟩⟩
    · intro hs
      obtain ⟨a1, e1⟩ := req_ex (ordm := ordm) reads_str hr (entry_req h1 rfl).1 trivial (entry_req h1 rfl).2
      obtain ⟨a2, e2⟩ := opt_ex (ordm := ordm) reads_str hr (entry_opt h2).weak trivial
      obtain ⟨a3, e3⟩ := opt_ex (ordm := ordm) reads_str hr (entry_opt h3).weak trivial
      obtain ⟨a4, e4⟩ := req_ex (reads_postings ho) hr (entry_postings h4 hk) (hs.txn rfl).2 (hs.txn rfl).1
      exact ⟨_, by rw [e1, e2, e3, e4]; rfl⟩
  rw [if_neg c] at h
  rw [if_neg c]
  clear c
  by_cases c : kind = str% "price"
  · subst c
    rw [if_pos rfl] at h
    rw [if_pos rfl]
    simp only [Bool.and_eq_true] at h
    obtain ⟨h1, h2⟩ := h
    have hpn : isPrice .nil = false := by simpa using notPrice_nil
    constructor
    · intro v hv
      obtain ⟨a1, e1, hv⟩ := Option.bind_eq_some_iff.1 hv
      obtain ⟨a2, e2, hv⟩ := Option.bind_eq_some_iff.1 hv
      cases hv
      have f1 := req_is reads_ref hr (entry_req h1 rfl).1 notStr_nil e1
      have f2 := req_is (reads_price ho) hr (entry_req h2 hpn).1 notPrice_nil e2
      exact ⟨⟨hd, f1.1, f2.1⟩, ⟨by simpa [namesOfKind] using f1.2.1, by simp, fun _ => f2.2.1, by simp, by simp⟩⟩
    · intro hs
      obtain ⟨a1, e1⟩ := req_ex (ordm := ordm) reads_ref hr (entry_req h1 rfl).1 (hs.names _ (by simp [namesOfKind])) (entry_req h1 rfl).2
      obtain ⟨a2, e2⟩ := req_ex (reads_price ho) hr (entry_req h2 hpn).1 (hs.price rfl) (entry_req h2 hpn).2
      exact ⟨_, by rw [e1, e2]; rfl⟩
  rw [if_neg c] at h
  rw [if_neg c]
  clear c
  by_cases c : kind = str% "balance"
  · subst c
    rw [if_pos rfl] at h
    rw [if_pos rfl]
    simp only [isBalance, Bool.and_eq_true] at h
    obtain ⟨⟨⟨h1, h2⟩, h3⟩, h4⟩ := h
    constructor
    · intro v hv
      obtain ⟨a1, e1, hv⟩ := Option.bind_eq_some_iff.1 hv
      obtain ⟨a2, e2, hv⟩ := Option.bind_eq_some_iff.1 hv
      obtain ⟨a3, e3, hv⟩ := Option.bind_eq_some_iff.1 hv
      obtain ⟨a4, e4, hv⟩ := Option.bind_eq_some_iff.1 hv
      cases hv
      have f1 := req_is reads_ref hr (entry_req h1 rfl).1 notStr_nil e1
      have f3 := req_is reads_ref hr (entry_req h3 rfl).1 notStr_nil e3
      exact ⟨⟨hd, f1.1, (req_is reads_num hr (entry_req h2 rfl).1 notNum_nil e2).1, f3.1,
        (opt_is reads_decimal trivial hr (entry_opt h4).weak e4).1⟩,
        sendKind_names (by simpa [namesOfKind] using ⟨f1.2.1, f3.2.1⟩) (by decide)⟩
    · intro hs
      obtain ⟨a1, e1⟩ := req_ex (ordm := ordm) reads_ref hr (entry_req h1 rfl).1 (hs.names _ (by simp [namesOfKind])) (entry_req h1 rfl).2
      obtain ⟨a2, e2⟩ := req_ex (ordm := ordm) reads_num hr (entry_req h2 rfl).1 trivial (entry_req h2 rfl).2
      obtain ⟨a3, e3⟩ := req_ex (ordm := ordm) reads_ref hr (entry_req h3 rfl).1 (hs.names _ (by simp [namesOfKind])) (entry_req h3 rfl).2
      obtain ⟨a4, e4⟩ := opt_ex (ordm := ordm) reads_decimal hr (entry_opt h4).weak trivial
      exact ⟨_, by rw [e1, e2, e3, e4]; rfl⟩
  rw [if_neg c] at h
  rw [if_neg c]
  clear c
  by_cases c : kind = str% "open"
  · subst c
    rw [if_pos rfl] at h
    rw [if_pos rfl]
    simp only [isOpen, Bool.and_eq_true] at h
    obtain ⟨⟨⟨h1, h2⟩, h3⟩, -⟩ := h
    constructor
    · intro v hv
      obtain ⟨a1, e1, hv⟩ := Option.bind_eq_some_iff.1 hv
      obtain ⟨a2, e2, hv⟩ := Option.bind_eq_some_iff.1 hv
      obtain ⟨a3, e3, hv⟩ := Option.bind_eq_some_iff.1 hv
      cases hv
      have f1 := req_is reads_ref hr (entry_req h1 rfl).1 notStr_nil e1
      have f2 := opt_is reads_set sendNames_nil hr (entry_opt h2).weak e2
      exact ⟨⟨hd, f1.1, f2.1, (opt_is reads_booking trivial hr (entry_opt h3).weak e3).1⟩,
        ⟨by simpa [namesOfKind] using f1.2.1, by simp, by simp, fun _ => f2.2, by simp⟩⟩
    · intro hs
      obtain ⟨a1, e1⟩ := req_ex (ordm := ordm) reads_ref hr (entry_req h1 rfl).1 (hs.names _ (by simp [namesOfKind])) (entry_req h1 rfl).2
      obtain ⟨a2, e2⟩ := opt_ex (ordm := ordm) reads_set hr (entry_opt h2).weak (hs.opn rfl)
      obtain ⟨a3, e3⟩ := opt_ex (ordm := ordm) reads_booking hr (entry_opt h3).weak trivial
      exact ⟨_, by rw [e1, e2, e3]; rfl⟩
  rw [if_neg c] at h
  rw [if_neg c]
  clear c
  by_cases c : kind = str% "close"
  · subst c
    rw [if_pos rfl] at h
    rw [if_pos rfl]
    have h1 := h
    constructor
    · intro v hv
      obtain ⟨a1, e1, hv⟩ := Option.bind_eq_some_iff.1 hv
      cases hv
      have f1 := req_is reads_ref hr (entry_req h1 rfl).1 notStr_nil e1
      exact ⟨⟨hd, f1.1⟩, sendKind_names (by simpa [namesOfKind] using f1.2.1) (by decide)⟩
    · intro hs
      obtain ⟨a1, e1⟩ := req_ex (ordm := ordm) reads_ref hr (entry_req h1 rfl).1 (hs.names _ (by simp [namesOfKind])) (entry_req h1 rfl).2
      exact ⟨_, by rw [e1]; rfl⟩
  rw [if_neg c] at h
  rw [if_neg c]
  clear c
  by_cases c : kind = str% "commodity"
  · subst c
    rw [if_pos rfl] at h
    rw [if_pos rfl]
    have h1 := h
    constructor
    · intro v hv
      obtain ⟨a1, e1, hv⟩ := Option.bind_eq_some_iff.1 hv
      cases hv
      have f1 := req_is reads_ref hr (entry_req h1 rfl).1 notStr_nil e1
      exact ⟨⟨hd, f1.1⟩, sendKind_names (by simpa [namesOfKind] using f1.2.1) (by decide)⟩
    · intro hs
      obtain ⟨a1, e1⟩ := req_ex (ordm := ordm) reads_ref hr (entry_req h1 rfl).1 (hs.names _ (by simp [namesOfKind])) (entry_req h1 rfl).2
      exact ⟨_, by rw [e1]; rfl⟩
  rw [if_neg c] at h
  rw [if_neg c]
  clear c
  by_cases c : kind = str% "pad"
  · subst c
    rw [if_pos rfl] at h
    rw [if_pos rfl]
    simp only [Bool.and_eq_true] at h
    obtain ⟨h1, h2⟩ := h
    constructor
    · intro v hv
      obtain ⟨a1, e1, hv⟩ := Option.bind_eq_some_iff.1 hv
      obtain ⟨a2, e2, hv⟩ := Option.bind_eq_some_iff.1 hv
      cases hv
      have f1 := req_is reads_ref hr (entry_req h1 rfl).1 notStr_nil e1
      have f2 := req_is reads_ref hr (entry_req h2 rfl).1 notStr_nil e2
      exact ⟨⟨hd, f1.1, f2.1⟩, sendKind_names (by simpa [namesOfKind] using ⟨f1.2.1, f2.2.1⟩) (by decide)⟩
    · intro hs
      obtain ⟨a1, e1⟩ := req_ex (ordm := ordm) reads_ref hr (entry_req h1 rfl).1 (hs.names _ (by simp [namesOfKind])) (entry_req h1 rfl).2
      obtain ⟨a2, e2⟩ := req_ex (ordm := ordm) reads_ref hr (entry_req h2 rfl).1 (hs.names _ (by simp [namesOfKind])) (entry_req h2 rfl).2
      exact ⟨_, by rw [e1, e2]; rfl⟩
  rw [if_neg c] at h
  rw [if_neg c]
  clear c
  by_cases c : kind = str% "document"
  · subst c
    rw [if_pos rfl] at h
    rw [if_pos rfl]
    simp only [Bool.and_eq_true] at h
    obtain ⟨h1, h2⟩ := h
    constructor
    · intro v hv
      obtain ⟨a1, e1, hv⟩ := Option.bind_eq_some_iff.1 hv
      obtain ⟨a2, e2, hv⟩ := Option.bind_eq_some_iff.1 hv
      cases hv
      have f1 := req_is reads_ref hr (entry_req h1 rfl).1 notStr_nil e1
      have f2 := req_is reads_str hr (entry_req h2 rfl).1 notStr_nil e2
      exact ⟨⟨hd, f1.1, f2.1⟩, sendKind_names (by simpa [namesOfKind] using f1.2.1) (by decide)⟩
    · intro hs
      obtain ⟨a1, e1⟩ := req_ex (ordm := ordm) reads_ref hr (entry_req h1 rfl).1 (hs.names _ (by simp [namesOfKind])) (entry_req h1 rfl).2
      obtain ⟨a2, e2⟩ := req_ex (ordm := ordm) reads_str hr (entry_req h2 rfl).1 trivial (entry_req h2 rfl).2
      exact ⟨_, by rw [e1, e2]; rfl⟩
  rw [if_neg c] at h
  rw [if_neg c]
  clear c
  by_cases c : kind = str% "note"
  · subst c
    rw [if_pos rfl] at h
    rw [if_pos rfl]
    simp only [Bool.and_eq_true] at h
    obtain ⟨h1, h2⟩ := h
    constructor
    · intro v hv
      obtain ⟨a1, e1, hv⟩ := Option.bind_eq_some_iff.1 hv
      obtain ⟨a2, e2, hv⟩ := Option.bind_eq_some_iff.1 hv
      cases hv
      have f1 := req_is reads_ref hr (entry_req h1 rfl).1 notStr_nil e1
      have f2 := req_is reads_str hr (entry_req h2 rfl).1 notStr_nil e2
      exact ⟨⟨hd, f1.1, f2.1⟩, sendKind_names (by simpa [namesOfKind] using f1.2.1) (by decide)⟩
    · intro hs
      obtain ⟨a1, e1⟩ := req_ex (ordm := ordm) reads_ref hr (entry_req h1 rfl).1 (hs.names _ (by simp [namesOfKind])) (entry_req h1 rfl).2
      obtain ⟨a2, e2⟩ := req_ex (ordm := ordm) reads_str hr (entry_req h2 rfl).1 trivial (entry_req h2 rfl).2
      exact ⟨_, by rw [e1, e2]; rfl⟩
  rw [if_neg c] at h
  rw [if_neg c]
  clear c
  by_cases c : kind = str% "event"
  · subst c
    rw [if_pos rfl] at h
    rw [if_pos rfl]
    simp only [Bool.and_eq_true] at h
    obtain ⟨h1, h2⟩ := h
    constructor
    · intro v hv
      obtain ⟨a1, e1, hv⟩ := Option.bind_eq_some_iff.1 hv
      obtain ⟨a2, e2, hv⟩ := Option.bind_eq_some_iff.1 hv
      cases hv
      have f1 := req_is reads_str hr (entry_req h1 rfl).1 notStr_nil e1
      have f2 := req_is reads_str hr (entry_req h2 rfl).1 notStr_nil e2
      exact ⟨⟨hd, f1.1, f2.1⟩, sendKind_names (by simp [namesOfKind]) (by decide)⟩
    · intro _
      obtain ⟨a1, e1⟩ := req_ex (ordm := ordm) reads_str hr (entry_req h1 rfl).1 trivial (entry_req h1 rfl).2
      obtain ⟨a2, e2⟩ := req_ex (ordm := ordm) reads_str hr (entry_req h2 rfl).1 trivial (entry_req h2 rfl).2
      exact ⟨_, by rw [e1, e2]; rfl⟩
  rw [if_neg c] at h
  rw [if_neg c]
  clear c
  by_cases c : kind = str% "query"
  · subst c
    rw [if_pos rfl] at h
    rw [if_pos rfl]
    simp only [Bool.and_eq_true] at h
    obtain ⟨h1, h2⟩ := h
    constructor
    · intro v hv
      obtain ⟨a1, e1, hv⟩ := Option.bind_eq_some_iff.1 hv
      obtain ⟨a2, e2, hv⟩ := Option.bind_eq_some_iff.1 hv
      cases hv
      have f1 := req_is reads_str hr (entry_req h1 rfl).1 notStr_nil e1
      have f2 := req_is reads_str hr (entry_req h2 rfl).1 notStr_nil e2
      exact ⟨⟨hd, f1.1, f2.1⟩, sendKind_names (by simp [namesOfKind]) (by decide)⟩
    · intro _
      obtain ⟨a1, e1⟩ := req_ex (ordm := ordm) reads_str hr (entry_req h1 rfl).1 trivial (entry_req h1 rfl).2
      obtain ⟨a2, e2⟩ := req_ex (ordm := ordm) reads_str hr (entry_req h2 rfl).1 trivial (entry_req h2 rfl).2
      exact ⟨_, by rw [e1, e2]; rfl⟩
  rw [if_neg c] at h
  rw [if_neg c]
  clear c
  by_cases c : kind = str% "custom"
  · subst c
    rw [if_pos rfl] at h
    rw [if_pos rfl]
    simp only [Bool.and_eq_true] at h
    obtain ⟨h1, h2⟩ := h
    obtain ⟨h2, h2'⟩ := entry_values h2
    constructor
    · intro v hv
      obtain ⟨a1, e1, hv⟩ := Option.bind_eq_some_iff.1 hv
      obtain ⟨a2, e2, hv⟩ := Option.bind_eq_some_iff.1 hv
      cases hv
      have f2 := req_is (reads_list (reads_meta ho)) hr h2 notVec_nil e2
      exact ⟨⟨hd, (req_is reads_str hr (entry_req h1 rfl).1 notStr_nil e1).1, f2.1⟩,
        ⟨by simp [namesOfKind], by simp, by simp, by simp, fun _ => f2.2.1⟩⟩
    · intro hs
      obtain ⟨a1, e1⟩ := req_ex (ordm := ordm) reads_str hr (entry_req h1 rfl).1 trivial (entry_req h1 rfl).2
      obtain ⟨a2, e2⟩ := req_ex (reads_list (reads_meta ho)) hr h2 (hs.custom rfl) h2'
      exact ⟨_, by rw [e1, e2]; rfl⟩
  rw [if_neg c] at h
  cases h

/-- A directive. -/
theorem reads_directive (ho : IsMapOrder ordm) :
    Reads ordm (fun x => validDct true x = true ∧ SpansKept x) SendDirective DirectiveIs Wire.decDirective := by
  constructor
  · rintro x a hr ⟨h, hk⟩ ha
    simp only [validDct, Bool.and_eq_true] at h
    obtain ⟨⟨h1, h2⟩, h3⟩ := h
    obtain ⟨l, rfl⟩ := reqUn_map h1
    rw [toJson, decDirective_congr (field_sent ho (real_nodup hr))] at ha
    simp only [Wire.decDirective, Option.bind_eq_bind, Option.bind_eq_some_iff] at ha
    obtain ⟨a0, e0, a1, e1, a2, e2, a3, e3, a4, e4, a5, e5, e⟩ := ha
    cases e
    have f2 := attached_is ho hr h2 e2 e3 e4
    have f5 := (variant_reads ho hr hk.2 h3).1 a5 e5
    exact ⟨⟨(opt_is reads_span trivial hr (entry_span hk.1) e0).1,
      (req_is reads_date hr (entry_req h1 rfl).1 (by simp [isDate]) e1).1, f2.1, f5.1⟩, f2.2, f5.2⟩
  · rintro x hr ⟨h, hk⟩ hs
    simp only [validDct, Bool.and_eq_true] at h
    obtain ⟨⟨h1, h2⟩, h3⟩ := h
    obtain ⟨l, rfl⟩ := reqUn_map h1
    rw [toJson, decDirective_congr (field_sent ho (real_nodup hr))]
    obtain ⟨a0, e0⟩ := opt_ex (ordm := ordm) reads_span hr (entry_span hk.1) trivial
    obtain ⟨a1, e1⟩ := req_ex (ordm := ordm) reads_date hr (entry_req h1 rfl).1 trivial (entry_req h1 rfl).2
    obtain ⟨⟨a2, e2⟩, ⟨a3, e3⟩, ⟨a4, e4⟩⟩ := attached_ex ho hr h2 hs.attached
    obtain ⟨a5, e5⟩ := (variant_reads ho hr hk.2 h3).2 hs.kind
    exact ⟨_, by simp only [Wire.decDirective, e0, e1, e2, e3, e4, e5]; rfl⟩

end Clj
end Limabean
