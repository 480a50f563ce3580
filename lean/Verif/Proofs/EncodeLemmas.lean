/-
How the server reads what the client writes.
-/
import Verif.Proofs.WireLemmas
import Verif.Clj.Data

namespace Limabean
namespace Clj

open Json

/-- The order of iteration of maps only rearranges. -/
def IsMapOrder (ordm : List (Str × Json) → List (Str × Json)) : Prop := ∀ l, (ordm l).Perm l

variable {ordm : List (Str × Json) → List (Str × Json)}

theorem toJsons_eq (l : List Data) : toJsons ordm l = l.map (toJson ordm) := by
  induction l with
  | nil => rfl
  | cons x l ih => simp [toJsons, ih]

theorem entriesToJson_eq (l : List (Str × Data)) : entriesToJson ordm l = l.map fun p => (p.1, toJson ordm p.2) := by
  induction l with
  | nil => rfl
  | cons x l ih => obtain ⟨k, x⟩ := x; simp [entriesToJson, ih]

theorem vals_length {l : List (Str × Json)} (h : (l.map Prod.fst).Nodup) (k : Str) : (vals k l).length ≤ 1 := by
  induction l with
  | nil => simp [vals]
  | cons p l ih =>
    obtain ⟨k', j⟩ := p
    simp only [List.map_cons, List.nodup_cons] at h
    have := ih h.2
    by_cases e : k' = k
    · subst e
      have : vals k' l = [] := by
        simp only [vals, List.filterMap_eq_nil_iff]
        intro p hp
        rw [if_neg]
        rintro rfl
        exact h.1 (List.mem_map.2 ⟨p, hp, rfl⟩)
      rw [Wire.vals_cons]
      simp [this]
    · rw [Wire.vals_cons]
      simpa [e] using this

theorem vals_perm {l l' : List (Str × Json)} (h : (l.map Prod.fst).Nodup) (hp : l'.Perm l) (k : Str) : vals k l' = vals k l := by
  have h1 : (vals k l').Perm (vals k l) := hp.filterMap _
  have h2 := vals_length h k
  match hv : vals k l, h2 with
  | [], _ => rw [hv] at h1; exact h1.eq_nil
  | [x], _ => rw [hv] at h1; exact List.perm_singleton.1 h1
  | _ :: _ :: _, h2 => simp at h2

theorem field_perm {l l' : List (Str × Json)} (h : (l.map Prod.fst).Nodup) (hp : l'.Perm l) : field l' = field l := by
  funext k
  simp [field, vals_perm h hp]

end Clj
end Limabean
