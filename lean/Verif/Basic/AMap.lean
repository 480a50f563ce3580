/-
Association lists with unique keys: the model of the hash maps.
-/
import Mathlib.Algebra.BigOperators.Group.List.Basic
import Mathlib.Data.List.Nodup
import Mathlib.Algebra.Ring.Rat
import Mathlib.Tactic.Ring

namespace Limabean

/-- A map as an association list. -/
abbrev AMap (K V : Type) := List (K × V)

set_option linter.unusedSectionVars false

namespace AMap
variable {K V : Type} [DecidableEq K]

/-- Lookup: `HashMap::get`. -/
def get : AMap K V → K → Option V
  | [], _ => none
  | (k', v) :: m, k => if k' = k then some v else get m k

/-- Insert or replace: `HashMap::insert`. -/
def set : AMap K V → K → V → AMap K V
  | [], k, v => [(k, v)]
  | (k', v') :: m, k, v => if k' = k then (k, v) :: m else (k', v') :: set m k v

/-- Remove: `HashMap::remove`. -/
def del : AMap K V → K → AMap K V
  | [], _ => []
  | (k', v) :: m, k => if k' = k then m else (k', v) :: del m k

/-- The keys. -/
def keys (m : AMap K V) : List K := m.map Prod.fst

/-- Keys are unique: what a hash map guarantees. -/
def WF (m : AMap K V) : Prop := (keys m).Nodup

/-- `HashMap::contains_key`. -/
def has (m : AMap K V) (k : K) : Bool := (get m k).isSome

@[simp] theorem get_nil (k : K) : get ([] : AMap K V) k = none := rfl

theorem get_set (m : AMap K V) (k k' : K) (v : V) :
    get (set m k v) k' = if k = k' then some v else get m k' := by
  induction m with
  | nil => simp [set, get]
  | cons kv m ih =>
    obtain ⟨a, b⟩ := kv
    unfold set
    by_cases h : a = k
    · subst h
      simp only [if_true, get]
      by_cases h2 : a = k' <;> simp [h2]
    · simp only [h, if_false, get]
      by_cases h2 : a = k'
      · subst h2; simp [Ne.symm h]
      · simp [h2, ih]

@[simp] theorem get_set_self (m : AMap K V) (k : K) (v : V) : get (set m k v) k = some v := by
  simp [get_set]

theorem get_set_ne (m : AMap K V) {k k' : K} (h : k ≠ k') (v : V) :
    get (set m k v) k' = get m k' := by simp [get_set, h]

theorem mem_keys_iff (m : AMap K V) (k : K) : k ∈ keys m ↔ ∃ v, get m k = some v := by
  induction m with
  | nil => simp [keys]
  | cons kv m ih =>
    obtain ⟨a, b⟩ := kv
    simp only [keys, List.map_cons, List.mem_cons, get]
    by_cases h : a = k
    · simp [h]
    · simp only [h, if_false]
      rw [← ih]
      simp [keys, Ne.symm h]

theorem get_eq_none_iff (m : AMap K V) (k : K) : get m k = none ↔ k ∉ keys m := by
  rw [mem_keys_iff]
  cases h : get m k <;> simp

theorem keys_set (m : AMap K V) (k : K) (v : V) :
    keys (set m k v) = if k ∈ keys m then keys m else keys m ++ [k] := by
  induction m with
  | nil => simp [keys, set]
  | cons kv m ih =>
    obtain ⟨a, b⟩ := kv
    unfold set
    by_cases h : a = k
    · simp [h, keys]
    · simp only [h, if_false]
      have h' : ¬ k = a := Ne.symm h
      simp only [keys, List.map_cons, List.mem_cons, h', false_or] at *
      rw [ih]
      by_cases hm : k ∈ List.map Prod.fst m <;> simp [hm]

theorem mem_set {m : AMap K V} {k : K} {v : V} {x : K × V} (h : x ∈ set m k v) : x = (k, v) ∨ x ∈ m := by
  induction m with
  | nil => simpa [set] using h
  | cons p m ih =>
    obtain ⟨k', v'⟩ := p
    unfold set at h
    split at h
    · rcases List.mem_cons.1 h with h | h
      · exact Or.inl h
      · exact Or.inr (List.mem_cons_of_mem _ h)
    · rcases List.mem_cons.1 h with h | h
      · right; rw [h]; simp
      · rcases ih h with h | h
        · exact Or.inl h
        · exact Or.inr (List.mem_cons_of_mem _ h)

theorem WF_nil : WF ([] : AMap K V) := by simp [WF, keys]

theorem WF_set {m : AMap K V} (h : WF m) (k : K) (v : V) : WF (set m k v) := by
  unfold WF at *
  rw [keys_set]
  split
  · exact h
  · rename_i hk
    rw [List.nodup_append]
    refine ⟨h, by simp, ?_⟩
    intro a ha b hb
    simp at hb
    subst hb
    exact fun hab => hk (hab ▸ ha)

theorem keys_del_subset (m : AMap K V) (k k' : K) (h : k' ∈ keys (del m k)) : k' ∈ keys m := by
  induction m with
  | nil => simp [del, keys] at h
  | cons kv m ih =>
    obtain ⟨a, b⟩ := kv
    unfold del at h
    by_cases hk : a = k
    · simp only [hk, if_true] at h
      simp only [keys, List.map_cons, List.mem_cons]
      right; exact h
    · simp only [hk, if_false, keys, List.map_cons, List.mem_cons] at h ⊢
      rcases h with h | h
      · left; exact h
      · right; exact ih h

theorem WF_del {m : AMap K V} (h : WF m) (k : K) : WF (del m k) := by
  induction m with
  | nil => exact h
  | cons kv m ih =>
    obtain ⟨a, b⟩ := kv
    unfold WF at *
    simp only [keys, List.map_cons, List.nodup_cons] at h
    unfold del
    by_cases hk : a = k
    · simp only [hk, if_true]; exact h.2
    · simp only [hk, if_false, keys, List.map_cons, List.nodup_cons]
      exact ⟨fun hm => h.1 (keys_del_subset m k a hm), ih h.2⟩

theorem get_del {m : AMap K V} (h : WF m) (k k' : K) :
    get (del m k) k' = if k = k' then none else get m k' := by
  induction m with
  | nil => simp [del]
  | cons kv m ih =>
    obtain ⟨a, b⟩ := kv
    unfold WF at *
    simp only [keys, List.map_cons, List.nodup_cons] at h
    unfold del
    by_cases hk : a = k
    · subst hk
      simp only [if_true, get]
      by_cases h2 : a = k'
      · subst h2
        simp only [if_true]
        exact (get_eq_none_iff m a).2 h.1
      · simp [h2]
    · simp only [hk, if_false, get]
      by_cases h2 : a = k'
      · subst h2; simp [Ne.symm hk]
      · simp only [h2, if_false]; exact ih h.2

theorem mem_of_get {m : AMap K V} {k : K} {v : V} (h : get m k = some v) : (k, v) ∈ m := by
  induction m with
  | nil => simp at h
  | cons kv m ih =>
    obtain ⟨a, b⟩ := kv
    simp only [get] at h
    by_cases hk : a = k
    · simp only [hk, if_true, Option.some.injEq] at h
      simp [hk, h]
    · simp only [hk, if_false] at h
      exact List.mem_cons_of_mem _ (ih h)

theorem get_of_mem {m : AMap K V} (hwf : WF m) {k : K} {v : V} (h : (k, v) ∈ m) :
    get m k = some v := by
  induction m with
  | nil => simp at h
  | cons kv m ih =>
    obtain ⟨a, b⟩ := kv
    unfold WF at *
    simp only [keys, List.map_cons, List.nodup_cons] at hwf
    simp only [get]
    rcases List.mem_cons.1 h with h | h
    · simp only [Prod.mk.injEq] at h
      simp [h.1, h.2]
    · have : a ≠ k := by
        rintro rfl
        exact hwf.1 (List.mem_map.2 ⟨(a, v), h, rfl⟩)
      simp only [this, if_false]
      exact ih hwf.2 h

theorem get_perm {m m' : AMap K V} (hwf : WF m) (h : m.Perm m') (k : K) : get m' k = get m k := by
  have hwf' : WF m' := by
    unfold WF keys at *
    exact (h.map Prod.fst).nodup_iff.1 hwf
  cases hg : get m k with
  | some v => exact get_of_mem hwf' (h.mem_iff.1 (mem_of_get hg))
  | none =>
    rw [get_eq_none_iff] at hg ⊢
    intro hm
    exact hg (by unfold keys at *; exact (h.map Prod.fst).mem_iff.2 hm)

/-- Replacing a value changes a sum by the difference. -/
theorem sum_set (m : AMap K V) (k : K) (v w : V) (hg : get m k = some v)
    (f : K × V → ℚ) :
    ((set m k w).map f).sum = (m.map f).sum - f (k, v) + f (k, w) := by
  induction m with
  | nil => simp at hg
  | cons kv m ih =>
    obtain ⟨a, b⟩ := kv
    simp only [get] at hg
    unfold set
    by_cases hk : a = k
    · subst hk
      simp only [if_true, Option.some.injEq] at hg
      subst hg
      simp only [if_true, List.map_cons, List.sum_cons]
      ring
    · simp only [hk, if_false] at hg ⊢
      simp only [List.map_cons, List.sum_cons, ih hg]
      ring

/-- Adding a key changes a sum by the new term. -/
theorem sum_set_new (m : AMap K V) (k : K) (w : V) (hg : get m k = none) (f : K × V → ℚ) :
    ((set m k w).map f).sum = (m.map f).sum + f (k, w) := by
  induction m with
  | nil => simp [set]
  | cons kv m ih =>
    obtain ⟨a, b⟩ := kv
    simp only [get] at hg
    unfold set
    by_cases hk : a = k
    · simp [hk] at hg
    · simp only [hk, if_false] at hg ⊢
      simp only [List.map_cons, List.sum_cons, ih hg]
      ring

end AMap
end Limabean
