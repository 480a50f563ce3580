/-
C40: loading a beanfile stops at the first error.
-/
import Verif.Proofs.PodLemmas
import Verif.Props.C49

namespace Limabean

open Clj Spec

variable {E : Ext} {L : BookLib}

namespace Spec

/-- What has been produced so far: plugins with options, raw directives, booked directives, the directives of the ledger, the registry. -/
def progress (m : LoadedBeans E) : List Bool :=
  [m.plugins.isSome, m.rawDirectives.isSome, m.bookedDirectives.isSome, m.directives.isSome, m.registry.isSome]

/-- What is produced before an error of each kind, and if there is none. -/
def produced : Option LoadError → List Bool
  | some (.parser _) => [false, false, false, false, false]
  | some (.plugins _) => [true, false, false, false, false]
  | some (.dctErrors true _) => [true, true, false, false, false]
  | some (.pluginException true) => [true, true, false, false, false]
  | some (.booking _) => [true, true, false, false, false]
  | some .bookingException => [true, true, false, false, false]
  | some (.dctErrors false _) => [true, true, true, false, false]
  | some (.pluginException false) => [true, true, true, false, false]
  | none => [true, true, true, true, true]

/-- What has been produced stays. -/
structure Extends (m m' : LoadedBeans E) : Prop where
  plugins : ∀ x, m.plugins = some x → m'.plugins = some x
  options : ∀ x, m.plugins = some x → m'.options = m.options
  raw : ∀ x, m.rawDirectives = some x → m'.rawDirectives = some x
  rawXf : ∀ x, m.rawXfDirectives = some x → m'.rawXfDirectives = some x
  booked : ∀ x, m.bookedDirectives = some x → m'.bookedDirectives = some x
  bookedXf : ∀ x, m.bookedXfDirectives = some x → m'.bookedXfDirectives = some x
  directives : ∀ x, m.directives = some x → m'.directives = some x
  registry : ∀ x, m.registry = some x → m'.registry = some x

end Spec

theorem Spec.Extends.refl (m : LoadedBeans E) : Extends m m := by constructor <;> simp

theorem Spec.Extends.trans {a b c : LoadedBeans E} (h : Extends a b) (h' : Extends b c) : Extends a c where
  plugins x hx := h'.plugins x (h.plugins x hx)
  options x hx := (h'.options x (h.plugins x hx)).trans (h.options x hx)
  raw x hx := h'.raw x (h.raw x hx)
  rawXf x hx := h'.rawXf x (h.rawXf x hx)
  booked x hx := h'.booked x (h.booked x hx)
  bookedXf x hx := h'.bookedXf x (h.bookedXf x hx)
  directives x hx := h'.directives x (h.directives x hx)
  registry x hx := h'.registry x (h.registry x hx)

namespace Clj

/-- The state before stage `i`, without error. -/
structure Reached (i : Nat) (m : LoadedBeans E) : Prop where
  plugins : m.plugins.isSome = decide (1 ≤ i)
  raw : m.rawDirectives.isSome = decide (2 ≤ i)
  rawXf : i ≤ 2 → m.rawXfDirectives = none
  booked : m.bookedDirectives.isSome = decide (4 ≤ i)
  bookedXf : i ≤ 4 → m.bookedXfDirectives = none
  directives : m.directives.isSome = decide (6 ≤ i)
  registry : m.registry.isSome = decide (7 ≤ i)

/-- The state before stage `i`. -/
def Inv40 (i : Nat) (m : LoadedBeans E) : Prop := (m.error = none ∧ Reached i m) ∨ (m.error.isSome ∧ progress m = produced m.error)

theorem isSome_none {α : Type} {x : Option α} (h : x.isSome = decide False) : x = none := by simpa using h

theorem stage_ok (F : Front E L) {i : Nat} {f : Stage E} (hf : (stages F)[i]? = some f) {m m' : LoadedBeans E} (he : m.error = none)
    (hr : Reached i m) (h : f m = .ok m') : Inv40 (i + 1) m' ∧ Extends m m' := by
  obtain ⟨pod, plugins, options, raw, rawXf, booked, bookedXf, directives, registry, rw, bw, error⟩ := m
  obtain ⟨h1, h2, h3, h4, h5, h6, h7⟩ := hr
  simp only at he h1 h2 h3 h4 h5 h6 h7
  subst he
  match i, hf with
  | 0, hf =>
    cases hf
    simp only [getPluginsAndOptions] at h
    split at h
    · cases h
    · split at h
      · split at h
        · cases h
        · cases h
          simp at h1 h2 h3 h4 h5 h6 h7
          subst h1 h2 h3 h4 h5 h6 h7
          refine ⟨?_, by constructor <;> simp⟩
          unfold Inv40
          dsimp only
          split
          · exact .inl ⟨rfl, by constructor <;> simp⟩
          · exact .inr ⟨rfl, rfl⟩
      · cases h
        simp at h1 h2 h3 h4 h5 h6 h7
        subst h1 h2 h3 h4 h5 h6 h7
        exact ⟨.inr ⟨rfl, rfl⟩, by constructor <;> simp⟩
  | 1, hf =>
    cases hf
    simp only [getRawDirectives] at h
    split at h
    · cases h
    · split at h
      · cases h
        simp at h1 h2 h3 h4 h5 h6 h7
        subst h2 h3 h4 h5 h6 h7
        exact ⟨.inl ⟨rfl, by constructor <;> simp [h1]⟩, by constructor <;> simp⟩
      · cases h
  | 2, hf =>
    cases hf
    simp only [runPluginsStage] at h
    simp at h1 h2 h3 h4 h5 h6 h7
    subst h3 h4 h5 h6 h7
    split at h
    · cases h
      exact ⟨.inl ⟨rfl, by constructor <;> simp [h1, h2]⟩, by constructor <;> simp⟩
    · split at h
      · cases h
        exact ⟨.inr ⟨rfl, by simp [progress, produced, h1, h2]⟩, by constructor <;> simp⟩
      · cases h
        refine ⟨?_, by constructor <;> simp⟩
        unfold Inv40
        dsimp only
        split
        · exact .inl ⟨rfl, by constructor <;> simp [h1, h2]⟩
        · exact .inr ⟨rfl, by simp [progress, produced, h1, h2]⟩
  | 3, hf =>
    cases hf
    simp only [bookRawDirectives] at h
    simp at h1 h2 h4 h5 h6 h7
    subst h4 h5 h6 h7
    split at h
    · cases h
      exact ⟨.inr ⟨rfl, by simp [progress, produced, h1, h2]⟩, by constructor <;> simp⟩
    · split at h
      · cases h
        exact ⟨.inl ⟨rfl, by constructor <;> simp [h1, h2]⟩, by constructor <;> simp⟩
      · cases h
        exact ⟨.inr ⟨rfl, by simp [progress, produced, h1, h2]⟩, by constructor <;> simp⟩
  | 4, hf =>
    cases hf
    simp only [runPluginsStage] at h
    simp at h1 h2 h4 h5 h6 h7
    subst h5 h6 h7
    split at h
    · cases h
      exact ⟨.inl ⟨rfl, by constructor <;> simp [h1, h2, h4]⟩, by constructor <;> simp⟩
    · split at h
      · cases h
        exact ⟨.inr ⟨rfl, by simp [progress, produced, h1, h2, h4]⟩, by constructor <;> simp⟩
      · cases h
        refine ⟨?_, by constructor <;> simp⟩
        unfold Inv40
        dsimp only
        split
        · exact .inl ⟨rfl, by constructor <;> simp [h1, h2, h4]⟩
        · exact .inr ⟨rfl, by simp [progress, produced, h1, h2, h4]⟩
  | 5, hf =>
    cases hf
    simp only [setDirectives] at h
    simp at h1 h2 h4 h6 h7
    subst h6 h7
    cases h
    exact ⟨.inl ⟨rfl, by constructor <;> simp [h1, h2, h4]⟩, by constructor <;> simp⟩
  | 6, hf =>
    cases hf
    simp only [setRegistry] at h
    simp at h1 h2 h4 h6 h7
    subst h7
    split at h
    · cases h
    · cases h
      exact ⟨.inl ⟨rfl, by constructor <;> simp [h1, h2, h4, h6]⟩, by constructor <;> simp⟩

theorem bindAll_error {m : LoadedBeans E} (h : m.error.isSome) (fs : List (Stage E)) : bindAll m fs = .ok m := by
  induction fs with
  | nil => rfl
  | cons f fs ih => rw [bindAll, if_pos h, ih]

theorem bindAll_append (m : LoadedBeans E) (a b : List (Stage E)) :
    bindAll m (a ++ b) = match bindAll m a with | .error p => .error p | .ok m' => bindAll m' b := by
  induction a generalizing m with
  | nil => rfl
  | cons f a ih =>
    simp only [List.cons_append, bindAll]
    split
    · exact ih m
    · split
      · rfl
      · exact ih _

/-- The stages from number `i` on. -/
theorem bindAll_inv (F : Front E L) (fs : List (Stage E)) (i : Nat) (hf : ∀ (j : Nat) f, fs[j]? = some f → (stages F)[i + j]? = some f) {m m' : LoadedBeans E}
    (hi : Inv40 i m) (h : bindAll m fs = .ok m') : Inv40 (i + fs.length) m' ∧ Extends m m' := by
  induction fs generalizing i m with
  | nil =>
    cases h
    exact ⟨hi, .refl _⟩
  | cons f fs ih =>
    rcases hi with ⟨he, hr⟩ | ⟨he, hr⟩
    · rw [bindAll, if_neg (by simp [he])] at h
      split at h
      · cases h
      · rename_i m1 h1
        obtain ⟨a1, a2⟩ := stage_ok F (by simpa using hf 0 f rfl) he hr h1
        have := ih (i + 1) (fun j g hg => by rw [show i + 1 + j = i + (j + 1) by omega]; exact hf (j + 1) g hg) a1 h
        rw [show i + (f :: fs).length = i + 1 + fs.length by simp; omega]
        exact ⟨this.1, a2.trans this.2⟩
    · rw [bindAll_error he] at h
      cases h
      exact ⟨.inr ⟨he, hr⟩, .refl _⟩

theorem reached_start (pod : Pod E) : Inv40 0 ({ pod := pod } : LoadedBeans E) := .inl ⟨rfl, by constructor <;> simp⟩

end Clj

/-- **C40**, what there is at the end: if the stages of loading end without an exception, then the result has what the stages before the
error produce, and nothing of later stages; everything if there is no error. -/
theorem C40_result (F : Front E L) {s : Server E} {m : LoadedBeans E} (h : loadBeanfile F s = .ok m) : progress m = produced m.error := by
  simp only [loadBeanfile] at h
  split at h
  · cases h
  · split at h
    · cases h
    · rename_i m' h'
      cases h
      rcases (bindAll_inv F (stages F) 0 (fun j f hf => by rw [Nat.zero_add]; exact hf) (reached_start _) h').1 with ⟨he, hr⟩ | ⟨_, hr⟩
      · rw [he]
        simp [progress, produced, hr.plugins, hr.raw, hr.booked, hr.directives, hr.registry, stages]
      · exact hr

/-- **C40**, the earlier stages: whatever the first `k` stages have produced is in the result; if there is an error after `k` stages, then
that is the result, and no later stage talks to the server or does anything else. -/
theorem C40_stops (F : Front E L) (pod : Pod E) (k : Nat) {m1 m : LoadedBeans E} (h1 : bindAll { pod := pod } ((stages F).take k) = .ok m1)
    (h : bindAll { pod := pod } (stages F) = .ok m) : Extends m1 m ∧ (m1.error.isSome → m = m1) := by
  rw [← List.take_append_drop k (stages F), bindAll_append, h1] at h
  have hi := (bindAll_inv F _ 0 (fun j f hf => by rw [Nat.zero_add]; rw [List.getElem?_take] at hf; split at hf; exact hf; cases hf) (reached_start pod) h1).1
  refine ⟨(bindAll_inv F _ _ (fun j f hf => ?_) hi h).2, fun he => ?_⟩
  · rw [List.getElem?_drop] at hf
    have hk : k < (stages F).length := by
      have := (List.getElem?_eq_some_iff.1 hf).1
      omega
    rw [List.length_take, Nat.zero_add, Nat.min_eq_left (Nat.le_of_lt hk)]
    exact hf
  · dsimp only at h
    rw [bindAll_error he] at h
    cases h
    rfl

namespace Ex

/-- What a load comes to. -/
def loaded (s : Server Toy.ext) : Option (List Bool × Bool) := match loadBeanfile Ex.front s with
  | .ok m => some (progress m, m.error.isSome)
  | .error _ => none

end Ex

/-- Non-vacuity: a ledger which loads, one which does not parse, and one whose booking fails. -/
example : Ex.loaded (Toy.server Ex.ledger) = some ([true, true, true, true, true], false) := by decide +kernel
example : Ex.loaded Toy.broken = some ([false, false, false, false, false], true) := by decide +kernel
example : Ex.loaded (Toy.server [Toy.mkTxn 2 [(Ex.bank, ⟨1, 0⟩, Ex.nzd), (Ex.bank, ⟨-1, 0⟩, Ex.nzd)]]) =
    some ([true, true, false, false, false], true) := by decide +kernel

end Limabean
