/-
C33: date filters partition the ledger.
-/
import Verif.Props.C30
import Verif.Props.C32

namespace Limabean

open Spec Clj

namespace Clj

theorem before_iff {a b : Date} : before a b = true ↔ DateLt a b := by
  simp [before, cmpDate_lt]

end Clj

/-- C33: what the date filters mean. -/
theorem C33_meaning (a b : Date) (x : Fields) :
    (dateLt a x = true ↔ ∃ d, x.date = some d ∧ DateLt d a) ∧
    (dateLe a x = true ↔ ∃ d, x.date = some d ∧ (DateLt d a ∨ d = a)) ∧
    (dateGt a x = true ↔ ∃ d, x.date = some d ∧ DateLt a d) ∧
    (dateGe a x = true ↔ ∃ d, x.date = some d ∧ (DateLt a d ∨ d = a)) ∧
    (dateGeLt a b x = true ↔ ∃ d, x.date = some d ∧ (DateLt a d ∨ d = a) ∧ DateLt d b) := by
  have le : ∀ d e : Date, (!before d e) = true ↔ (DateLt e d ∨ d = e) := by
    intro d e
    rw [Bool.not_eq_true', ← Bool.not_eq_true, before_iff, ← cmpDate_lt, ← cmpDate_lt, ← cmpDate_total.eq,
      cmpDate_total.swap d e]
    cases cmpDate d e <;> simp
  unfold dateLt dateLe dateGt dateGe dateGeLt
  cases x.date with
  | none => simp
  | some d =>
    simp only [Option.some.injEq, exists_eq_left', Bool.and_eq_true, le, before_iff]
    refine ⟨trivial, ?_, trivial, trivial, trivial⟩
    rw [eq_comm (a := a)]

namespace Clj

theorem filters3 {α : Type} (f g h : α → Bool) (l : List α) (hx : ∀ x ∈ l,
    (f x = true ∧ g x = false ∧ h x = false) ∨ (f x = false ∧ g x = true ∧ h x = false) ∨
    (f x = false ∧ g x = false ∧ h x = true)) : (l.filter f ++ l.filter g ++ l.filter h).Perm l := by
  induction l with
  | nil => exact .refl _
  | cons x l ih =>
    have ih := ih fun y hy => hx y (by simp [hy])
    rcases hx x (by simp) with ⟨a, b, c⟩ | ⟨a, b, c⟩ | ⟨a, b, c⟩
    · simp only [List.filter_cons, a, b, c, if_true, Bool.false_eq_true, if_false]
      exact ih.cons x
    · simp only [List.filter_cons, a, b, c, if_true, Bool.false_eq_true, if_false]
      refine List.Perm.trans ?_ (ih.cons x)
      rw [List.append_assoc, List.append_assoc]
      exact List.perm_middle
    · simp only [List.filter_cons, a, b, c, if_true, Bool.false_eq_true, if_false]
      exact List.perm_middle.trans (ih.cons x)

end Clj

/-- C33: for dates `a ≤ b` what is dated before `a`, from `a` until before `b`, and from `b` on partitions any list of dated
elements, such as directives and postings. -/
theorem C33_partition {α : Type} (fields : α → Fields) (l : List α) (hd : ∀ x ∈ l, (fields x).date ≠ none) (a b : Date)
    (hab : DateLt a b ∨ a = b) :
    (allOf fields [dateLt a] l ++ allOf fields [dateGeLt a b] l ++ allOf fields [dateGe b] l).Perm l ∧
    (∀ x ∈ l, (x ∈ allOf fields [dateLt a] l ∧ x ∉ allOf fields [dateGeLt a b] l ∧ x ∉ allOf fields [dateGe b] l) ∨
      (x ∉ allOf fields [dateLt a] l ∧ x ∈ allOf fields [dateGeLt a b] l ∧ x ∉ allOf fields [dateGe b] l) ∨
      (x ∉ allOf fields [dateLt a] l ∧ x ∉ allOf fields [dateGeLt a b] l ∧ x ∈ allOf fields [dateGe b] l)) := by
  have key : ∀ x ∈ l, (dateLt a (fields x) = true ∧ dateGeLt a b (fields x) = false ∧ dateGe b (fields x) = false) ∨
      (dateLt a (fields x) = false ∧ dateGeLt a b (fields x) = true ∧ dateGe b (fields x) = false) ∨
      (dateLt a (fields x) = false ∧ dateGeLt a b (fields x) = false ∧ dateGe b (fields x) = true) := by
    intro x hx
    unfold dateLt dateGeLt dateGe
    cases h : (fields x).date with
    | none => exact absurd h (hd x hx)
    | some d =>
      simp only
      have h1 : before d a = true → before d b = true := by
        intro h
        rcases hab with hab | rfl
        · rw [before_iff, ← cmpDate_lt] at *
          exact cmpDate_total.trans _ _ _ h hab
        · exact h
      cases h2 : before d a <;> cases h3 : before d b <;> simp_all
  constructor
  · have := filters3 (fun x => dateLt a (fields x)) (fun x => dateGeLt a b (fields x)) (fun x => dateGe b (fields x)) l key
    simpa [allOf] using this
  · intro x hx
    simp only [(C32_all_of fields _ [] l).2.1, List.mem_singleton, forall_eq]
    rcases key x hx with ⟨h1, h2, h3⟩ | ⟨h1, h2, h3⟩ | ⟨h1, h2, h3⟩ <;> simp [h1, h2, h3, hx]

/-- C33: in a ledger in order of date the three parts follow one another. -/
theorem C33_in_order {α : Type} (fields : α → Fields) (l : List α) (hd : ∀ x ∈ l, (fields x).date ≠ none)
    (ho : l.Pairwise fun x y => ∀ d ∈ (fields x).date, ∀ e ∈ (fields y).date, ¬ DateLt e d) (a b : Date)
    (hab : DateLt a b ∨ a = b) :
    allOf fields [dateLt a] l ++ allOf fields [dateGeLt a b] l ++ allOf fields [dateGe b] l = l := by
  induction l with
  | nil => rfl
  | cons x l ih =>
    rw [List.pairwise_cons] at ho
    have ih := ih (fun y hy => hd y (by simp [hy])) ho.2
    obtain ⟨d, hdx⟩ := Option.ne_none_iff_exists'.1 (hd x (by simp))
    have empty : ∀ f : Filter, (∀ y ∈ l, f (fields y) = false) → l.filter (fun y => f (fields y)) = [] := by
      intro f hf
      rw [List.filter_eq_nil_iff]
      intro y hy
      simp [hf y hy]
    have later : ∀ y ∈ l, ∃ e, (fields y).date = some e ∧ ∀ c, before d c = false → before e c = false := by
      intro y hy
      obtain ⟨e, he⟩ := Option.ne_none_iff_exists'.1 (hd y (by simp [hy]))
      refine ⟨e, he, fun c hc => ?_⟩
      have := ho.1 y hy d hdx e he
      by_contra hcon
      simp only [Bool.not_eq_false] at hcon
      rw [before_iff, ← cmpDate_lt] at hcon
      rw [← Bool.not_eq_true, before_iff, ← cmpDate_lt] at hc
      rw [← cmpDate_lt] at this
      cases h : cmpDate d e with
      | lt => exact hc (cmpDate_total.trans _ _ _ h hcon)
      | eq => rw [cmpDate_total.eq] at h; subst h; exact hc hcon
      | gt => exact this (cmpDate_total.gt.1 h)
    simp only [allOf, List.isEmpty_cons, Bool.false_eq_true, if_false, List.all_cons, List.all_nil, Bool.and_true] at ih ⊢
    have h1 : before d a = true → before d b = true := by
      intro h
      rcases hab with hab | rfl
      · rw [before_iff, ← cmpDate_lt] at *
        exact cmpDate_total.trans _ _ _ h hab
      · exact h
    cases ha : before d a with
    | true =>
      have hb := h1 ha
      simp only [List.filter_cons, dateLt, dateGeLt, dateGe, hdx, ha, hb, if_true, Bool.not_true, Bool.false_and,
        Bool.false_eq_true, if_false] at ih ⊢
      rw [List.cons_append, List.cons_append]
      exact congrArg _ ih
    | false =>
      have e1 : l.filter (fun y => dateLt a (fields y)) = [] := empty (dateLt a) fun y hy => by
        obtain ⟨e, he, h⟩ := later y hy
        simp [dateLt, he, h a ha]
      cases hb : before d b with
      | true =>
        rw [e1] at ih
        simp only [List.filter_cons, dateLt, dateGeLt, dateGe, hdx, ha, hb, if_true, Bool.not_true, Bool.not_false,
          Bool.and_self, Bool.false_eq_true, if_false] at ih e1 ⊢
        rw [e1]
        exact congrArg _ ih
      | false =>
        have e2 : l.filter (fun y => dateGeLt a b (fields y)) = [] := empty (dateGeLt a b) fun y hy => by
          obtain ⟨e, he, h⟩ := later y hy
          simp [dateGeLt, he, h b hb]
        rw [e1, e2] at ih
        simp only [List.filter_cons, dateLt, dateGeLt, dateGe, hdx, ha, hb, if_true, Bool.not_false, Bool.and_false,
          Bool.false_eq_true, if_false] at ih e1 e2 ⊢
        rw [e1, e2]
        simpa using ih

/-- C33: the reports' rows of postings are dated as their transactions. -/
theorem C33_postings (ds : List Booked.Directive) (f : Filter) (hf : ∀ x y : Fields, x.date = y.date → f x = f y) :
    allOf Row.fields [f] (postingRows ds) = postingRows (allOf directiveFields [f] ds) := by
  have dd : ∀ d, (directiveFields d).date = some d.date := by
    intro d
    unfold directiveFields
    cases d.variant <;> rfl
  simp only [allOf, List.isEmpty_cons, Bool.false_eq_true, if_false, List.all_cons, List.all_nil, Bool.and_true]
  induction ds with
  | nil => rfl
  | cons d ds ih =>
    unfold postingRows at *
    rw [List.flatMap_cons, List.filter_append, ih, List.filter_cons]
    cases h : f (directiveFields d) with
    | true =>
      rw [if_pos rfl, List.flatMap_cons]
      congr 1
      rw [List.filter_eq_self]
      intro r hr
      rw [← h]
      refine hf _ _ ?_
      cases hv : d.variant with
      | transaction t =>
        rw [hv] at hr
        obtain ⟨p, -, rfl⟩ := List.mem_map.1 hr
        rw [dd]; rfl
      | _ => rw [hv] at hr; simp at hr
    | false =>
      rw [if_neg (by simp)]
      convert List.nil_append _
      rw [List.filter_eq_nil_iff]
      intro r hr
      rw [Bool.not_eq_true, ← h]
      refine hf _ _ ?_
      cases hv : d.variant with
      | transaction t =>
        rw [hv] at hr
        obtain ⟨p, -, rfl⟩ := List.mem_map.1 hr
        rw [dd]; rfl
      | _ => rw [hv] at hr; simp at hr

/-- The boundary belongs to the later part. -/
example : (allOf (fun d => { date := some d }) [dateGeLt ⟨2024, 1, 1⟩ ⟨2025, 1, 1⟩]
    [⟨2023, 12, 31⟩, ⟨2024, 1, 1⟩, ⟨2024, 12, 31⟩, ⟨2025, 1, 1⟩]) = [⟨2024, 1, 1⟩, ⟨2024, 12, 31⟩] := by decide +kernel

end Limabean
