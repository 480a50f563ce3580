/-
Clojure's `compare` on the values which limabean sorts, and `sort`.

`compare` on strings is Java's `String.compareTo`: lexicographic on UTF-16 code units; here on code points, which gives the
same order except between characters beyond the basic plane and U+E000 to U+FFFF. `compare` on numbers is by value.
`sort` is stable; here insertion sort, which gives the same list as every stable sort.
-/
import Mathlib.Data.List.Sort
import Mathlib.Algebra.Order.Ring.Rat
import Verif.Pod.Types

namespace Limabean
namespace Clj

/-- `compare` on strings. -/
def cmpStr : Str → Str → Ordering
  | [], [] => .eq
  | [], _ :: _ => .lt
  | _ :: _, [] => .gt
  | a :: s, b :: t => (compare a.toNat b.toNat).then (cmpStr s t)

/-- `compare` on dates: `LocalDate.compareTo`. -/
def cmpDate (a b : Date) : Ordering := (compare a.y b.y).then ((compare a.m b.m).then (compare a.d b.d))

/-- Insertion of `a` into a sorted list, before the first element that comes after it. -/
def insertBy {α : Type} (cmp : α → α → Ordering) (a : α) : List α → List α
  | [] => [a]
  | b :: l => if cmp a b = .lt ∨ cmp a b = .eq then a :: b :: l else b :: insertBy cmp a l

/-- `sort` with a comparator. -/
def sortBy {α : Type} (cmp : α → α → Ordering) : List α → List α
  | [] => []
  | a :: l => insertBy cmp a (sortBy cmp l)

/-- The comparator is a strict total order whose ties are the equal elements. -/
structure TotalCmp {α : Type} (cmp : α → α → Ordering) : Prop where
  eq : ∀ a b, cmp a b = .eq ↔ a = b
  swap : ∀ a b, cmp b a = (cmp a b).swap
  trans : ∀ a b c, cmp a b = .lt → cmp b c = .lt → cmp a c = .lt

theorem then_eq_lt {a b : Ordering} : a.then b = .lt ↔ a = .lt ∨ a = .eq ∧ b = .lt := by
  cases a <;> cases b <;> decide

theorem then_eq_eq {a b : Ordering} : a.then b = .eq ↔ a = .eq ∧ b = .eq := by
  cases a <;> cases b <;> decide

namespace TotalCmp
variable {α : Type} {cmp : α → α → Ordering}

theorem refl (h : TotalCmp cmp) (a : α) : cmp a a = .eq := (h.eq a a).2 rfl

theorem gt (h : TotalCmp cmp) {a b : α} : cmp a b = .gt ↔ cmp b a = .lt := by
  rw [h.swap a b]
  cases cmp a b <;> decide

theorem of_linearOrder {β : Type} [LinearOrder β] : TotalCmp (compare : β → β → Ordering) where
  eq a b := by simp
  swap a b := by
    rcases lt_trichotomy a b with h | h | h
    · rw [compare_lt_iff_lt.2 h, compare_gt_iff_gt.2 h]; rfl
    · subst h; simp
    · rw [compare_lt_iff_lt.2 h, compare_gt_iff_gt.2 h]; rfl
  trans a b c h1 h2 := by
    rw [compare_lt_iff_lt] at *
    exact h1.trans h2

/-- Comparison through an injective function. -/
theorem on {β : Type} (h : TotalCmp cmp) (f : β → α) (hf : ∀ a b, f a = f b → a = b) :
    TotalCmp fun a b => cmp (f a) (f b) where
  eq a b := by rw [h.eq]; exact ⟨hf a b, fun e => e ▸ rfl⟩
  swap a b := h.swap _ _
  trans a b c := h.trans _ _ _

/-- Lexicographic comparison of pairs. -/
theorem lex {β : Type} {cmp' : β → β → Ordering} (h : TotalCmp cmp) (h' : TotalCmp cmp') :
    TotalCmp fun (a b : α × β) => (cmp a.1 b.1).then (cmp' a.2 b.2) where
  eq a b := by
    rw [then_eq_eq, h.eq, h'.eq, Prod.ext_iff]
  swap a b := by
    rw [h.swap, h'.swap]
    cases cmp a.1 b.1 <;> cases cmp' a.2 b.2 <;> rfl
  trans a b c h1 h2 := by
    rw [then_eq_lt] at *
    rcases h1 with h1 | ⟨e1, h1⟩ <;> rcases h2 with h2 | ⟨e2, h2⟩
    · exact Or.inl (h.trans _ _ _ h1 h2)
    · rw [h.eq] at e2; exact Or.inl (e2 ▸ h1)
    · rw [h.eq] at e1; exact Or.inl (e1 ▸ h2)
    · rw [h.eq] at e1 e2
      exact Or.inr ⟨by rw [h.eq, e1, e2], h'.trans _ _ _ h1 h2⟩

end TotalCmp

theorem cmpStr_total : TotalCmp cmpStr where
  eq a b := by
    induction a generalizing b with
    | nil => cases b <;> simp [cmpStr]
    | cons x s ih =>
      cases b with
      | nil => simp [cmpStr]
      | cons y t =>
        simp only [cmpStr, then_eq_eq, ih, compare_eq_iff_eq, List.cons.injEq]
        refine and_congr_left fun _ => ⟨fun h => Char.ext (UInt32.toNat_inj.1 h), fun h => h ▸ rfl⟩
  swap a b := by
    induction a generalizing b with
    | nil => cases b <;> rfl
    | cons x s ih =>
      cases b with
      | nil => rfl
      | cons y t =>
        simp only [cmpStr, ih, TotalCmp.of_linearOrder.swap x.toNat y.toNat]
        cases compare x.toNat y.toNat <;> cases cmpStr s t <;> rfl
  trans a b c h1 h2 := by
    induction a generalizing b c with
    | nil =>
      cases c with
      | nil => cases b <;> simp [cmpStr] at h1 h2
      | cons => rfl
    | cons x s ih =>
      cases b with
      | nil => simp [cmpStr] at h1
      | cons y t =>
        cases c with
        | nil => simp [cmpStr] at h2
        | cons z u =>
          simp only [cmpStr, then_eq_lt, compare_lt_iff_lt, compare_eq_iff_eq] at *
          rcases h1 with h1 | ⟨e1, h1⟩ <;> rcases h2 with h2 | ⟨e2, h2⟩
          · exact Or.inl (by omega)
          · exact Or.inl (by omega)
          · exact Or.inl (by omega)
          · exact Or.inr ⟨by omega, ih _ _ h1 h2⟩

theorem cmpDate_total : TotalCmp cmpDate :=
  ((TotalCmp.of_linearOrder (β := Nat)).lex ((TotalCmp.of_linearOrder (β := Nat)).lex
    (TotalCmp.of_linearOrder (β := Nat)))).on (fun d : Date => (d.y, d.m, d.d)) fun a b h => by
      cases a; cases b; simpa using h

section Sorting
variable {α : Type} {cmp : α → α → Ordering}

theorem insertBy_perm (a : α) (l : List α) : (insertBy cmp a l).Perm (a :: l) := by
  induction l with
  | nil => exact .refl _
  | cons b l ih =>
    simp only [insertBy]
    split
    · exact .refl _
    · exact (ih.cons b).trans (.swap a b l)

theorem sortBy_perm (l : List α) : (sortBy cmp l).Perm l := by
  induction l with
  | nil => exact .refl _
  | cons a l ih => exact (insertBy_perm a _).trans (ih.cons a)

theorem mem_sortBy {a : α} {l : List α} : a ∈ sortBy cmp l ↔ a ∈ l := (sortBy_perm l).mem_iff

/-- `a` is not after `b`. -/
def Le (cmp : α → α → Ordering) (a b : α) : Prop := cmp a b ≠ .gt

/-- The comparator is a total preorder. -/
structure PreCmp (cmp : α → α → Ordering) : Prop where
  swap : ∀ a b, cmp b a = (cmp a b).swap
  trans : ∀ a b c, Le cmp a b → Le cmp b c → Le cmp a c

/-- A strict total order gives a total preorder, also through a function. -/
theorem TotalCmp.pre {β : Type} (h : TotalCmp cmp) (f : β → α) : PreCmp fun a b => cmp (f a) (f b) where
  swap a b := h.swap _ _
  trans a b c h1 h2 := by
    unfold Le at *
    dsimp only at *
    cases e1 : cmp (f a) (f b) with
    | gt => exact absurd e1 h1
    | eq => rw [h.eq] at e1; rw [e1]; exact h2
    | lt =>
      cases e2 : cmp (f b) (f c) with
      | gt => exact absurd e2 h2
      | eq => rw [h.eq] at e2; rw [← e2]; exact h1
      | lt => rw [h.trans _ _ _ e1 e2]; decide

theorem insertBy_sorted (h : PreCmp cmp) {a : α} {l : List α} (hl : l.Pairwise (Le cmp)) :
    (insertBy cmp a l).Pairwise (Le cmp) := by
  induction l with
  | nil => simp [insertBy]
  | cons b l ih =>
    rw [List.pairwise_cons] at hl
    simp only [insertBy]
    split
    · rename_i hab
      refine List.pairwise_cons.2 ⟨?_, List.pairwise_cons.2 hl⟩
      intro x hx
      have hab' : Le cmp a b := by unfold Le; rcases hab with hab | hab <;> simp [hab]
      rcases List.mem_cons.1 hx with rfl | hx
      · exact hab'
      · exact h.trans _ _ _ hab' (hl.1 x hx)
    · rename_i hab
      refine List.pairwise_cons.2 ⟨?_, ih hl.2⟩
      intro x hx
      rcases List.mem_cons.1 ((insertBy_perm a l).mem_iff.1 hx) with rfl | hx
      · unfold Le
        rw [h.swap x b]
        cases e : cmp x b <;> simp_all
      · exact hl.1 x hx

theorem sortBy_sorted (h : PreCmp cmp) (l : List α) : (sortBy cmp l).Pairwise (Le cmp) := by
  induction l with
  | nil => exact .nil
  | cons a l ih => exact insertBy_sorted h ih

theorem insertBy_congr {cmp' : α → α → Ordering} {a : α} {l : List α} (h : ∀ b ∈ l, cmp a b = cmp' a b) :
    insertBy cmp a l = insertBy cmp' a l := by
  induction l with
  | nil => rfl
  | cons b l ih =>
    simp only [insertBy]
    rw [h b (by simp), ih fun x hx => h x (by simp [hx])]

/-- Sorting only looks at the elements of the list. -/
theorem sortBy_congr {cmp' : α → α → Ordering} {l : List α} (h : ∀ a ∈ l, ∀ b ∈ l, cmp a b = cmp' a b) :
    sortBy cmp l = sortBy cmp' l := by
  induction l with
  | nil => rfl
  | cons a l ih =>
    rw [sortBy, sortBy, ih fun x hx y hy => h x (by simp [hx]) y (by simp [hy])]
    exact insertBy_congr fun b hb => h a (by simp) b (by simp [mem_sortBy.1 hb])

/-- Sorting distinct elements gives a strictly ascending list. -/
theorem sortBy_strict (h : TotalCmp cmp) {l : List α} (hn : l.Nodup) :
    (sortBy cmp l).Pairwise fun a b => cmp a b = .lt := by
  have h1 := sortBy_sorted (h.pre id) l
  have h2 : (sortBy cmp l).Nodup := (sortBy_perm l).nodup_iff.2 hn
  refine (h1.and h2).imp fun {a b} hab => ?_
  obtain ⟨hle, hne⟩ := hab
  cases e : cmp a b with
  | lt => rfl
  | eq => exact absurd ((h.eq _ _).1 e) hne
  | gt => exact absurd e hle

/-- Strictly ascending lists with the same elements are equal. -/
theorem strict_unique (h : TotalCmp cmp) {l l' : List α} (hl : l.Pairwise fun a b => cmp a b = .lt)
    (hl' : l'.Pairwise fun a b => cmp a b = .lt) (hm : ∀ a, a ∈ l ↔ a ∈ l') : l = l' := by
  induction l generalizing l' with
  | nil =>
    cases l' with
    | nil => rfl
    | cons b l' => exact absurd ((hm b).2 (by simp)) (by simp)
  | cons a l ih =>
    cases l' with
    | nil => exact absurd ((hm a).1 (by simp)) (by simp)
    | cons b l' =>
      rw [List.pairwise_cons] at hl hl'
      have irr : ∀ x, cmp x x ≠ .lt := fun x => by simp [h.refl]
      have hab : a = b := by
        rcases List.mem_cons.1 ((hm a).1 (by simp)) with e | ha
        · exact e
        rcases List.mem_cons.1 ((hm b).2 (by simp)) with e | hb
        · exact e.symm
        exact absurd (h.trans _ _ _ (hl.1 b hb) (hl'.1 a ha)) (irr a)
      subst hab
      congr 1
      refine ih hl.2 hl'.2 fun x => ?_
      constructor
      · intro hx
        rcases List.mem_cons.1 ((hm x).1 (by simp [hx])) with e | h'
        · subst e; exact absurd (hl.1 x hx) (irr x)
        · exact h'
      · intro hx
        rcases List.mem_cons.1 ((hm x).2 (by simp [hx])) with e | h'
        · subst e; exact absurd (hl'.1 x hx) (irr x)
        · exact h'

theorem sortBy_eq_of_mem_iff (h : TotalCmp cmp) {l l' : List α} (hn : l.Nodup) (hn' : l'.Nodup)
    (hm : ∀ a, a ∈ l ↔ a ∈ l') : sortBy cmp l = sortBy cmp l' :=
  strict_unique h (sortBy_strict h hn) (sortBy_strict h hn') fun a => by rw [mem_sortBy, mem_sortBy, hm]

end Sorting

end Clj
end Limabean
