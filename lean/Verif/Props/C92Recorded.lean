/-
C92: what creating golden files writes to which file, and what a passing test says about each of them.
-/
import Verif.Props.C92

namespace Limabean

open Clj Spec

variable {E : Ext} {L : BookLib}

/-- **C92**, what is written for a test: if the beanfile has an error, the error; otherwise the directives, those before booking, and the
reports, each if there was a file for it already, and directives also if plugins were at work. -/
theorem C92_recorded {H : TestHost E L} {D D' : Disk} (hp : ProperPaths D) (hu : H.updateAll D = (D', true)) {p : Str} (h : p ∈ D.paths)
    (ht : isTest p = true) :
    ∃ m, H.load p = some m ∧
      (∀ e, m.error = some e → D'.file (goldenPath p) (str% "error.edn") = some (H.write (H.errorData e))) ∧
      (m.error = none →
        ((D.file (goldenPath p) (str% "directives.edn")).isSome ∨ m.bookedXfDirectives.isSome →
          D'.file (goldenPath p) (str% "directives.edn") = some (H.write (ofDirectives m.directives))) ∧
        ((D.file (goldenPath p) (str% "raw-xf-directives.edn")).isSome ∨ m.rawXfDirectives.isSome →
          D'.file (goldenPath p) (str% "raw-xf-directives.edn") = some (H.write (ofDirectives m.rawXfDirectives))) ∧
        ((D.file (goldenPath p) (str% "inventory")).isSome → D'.file (goldenPath p) (str% "inventory") =
          some (H.shown .inventory (m.directives.getD []) m.registry).1.flatten) ∧
        ((D.file (goldenPath p) (str% "rollup")).isSome → D'.file (goldenPath p) (str% "rollup") =
          some (H.shown .rollup (m.directives.getD []) m.registry).1.flatten) ∧
        ((D.file (goldenPath p) (str% "journal")).isSome → D'.file (goldenPath p) (str% "journal") =
          some (H.shown .journal (m.directives.getD []) m.registry).1.flatten)) := by
  have hmem : (⟨p, goldenPath p⟩ : GoldenTest) ∈ findGolden D true := by
    unfold findGolden
    simp only [Bool.true_or, List.filter_true]
    exact List.mem_map.2 ⟨p, List.mem_filter.2 ⟨h, ht⟩, rfl⟩
  obtain ⟨m, r, hm, hr, hD⟩ := updateEach_at (golden_nodup hp) hu hmem
  have hfile : ∀ x, D'.file (goldenPath p) x = r x := fun x => by rw [Disk.file, show D'.golden (goldenPath p) = _ from hD]; rfl
  have hold : ∀ x, ((D.golden (goldenPath p)).getD .empty) x = D.file (goldenPath p) x := by
    intro x
    unfold Disk.file
    cases D.golden (goldenPath p) <;> rfl
  refine ⟨m, hm, fun e he => ?_, fun he => ?_⟩
  · unfold TestHost.updateDir at hr
    rw [he] at hr
    rw [hfile, ← (Prod.mk.inj hr).1]
    exact Dir.put_self _ _ _
  · have hw : writeOutputs m H.outputs ((D.golden (goldenPath p)).getD .empty) = (r, true) := by
      unfold TestHost.updateDir at hr
      rw [he] at hr
      exact hr
    have key : ∀ i, (H.output i).required m (D.file (goldenPath p) (H.output i).filename).isSome = true →
        D'.file (goldenPath p) (H.output i).filename = some ((H.output i).text m).1 := by
      intro i hi
      rcases writeOutputs_file (outputs_nodup H) hw (H.output_mem i) with ⟨-, h1, -⟩ | ⟨h1, -⟩
      · rw [hfile, h1]
      · rw [hold, hi] at h1
        cases h1
    refine ⟨fun hx => key 0 ?_, fun hx => key 1 ?_, fun hx => key 2 hx, fun hx => key 3 hx, fun hx => key 4 hx⟩
    · exact Bool.or_eq_true_iff.2 hx.symm
    · exact Bool.or_eq_true_iff.2 hx.symm

/-- **C92**, what a passing test says of a recorded error: loading ends with an error which matches it, or, if nothing is recorded in the
file (`nil`), what matches that. -/
theorem C92_sound_error {H : TestHost E L} {D : Disk} {t : GoldenTest} (h : H.apiPasses D t = true) {text : Str}
    (hf : D.file t.golden (str% "error.edn") = some text) {x : Data} (hr : H.readEdn text = some x) :
    (∃ m e, H.load t.beanfile = some m ∧ m.error = some e ∧ H.fits x (H.errorData e) = true) ∨
    ((∀ m, H.load t.beanfile = some m → m.error = none) ∧ H.fits x .nil = true) := by
  unfold TestHost.apiPasses at h
  simp only [List.all_cons, List.all_nil, Bool.and_true, Bool.and_eq_true] at h
  have h := h.2.2
  rw [show D.file t.golden Key.error.file = some text from hf] at h
  dsimp only at h
  rw [hr] at h
  dsimp only at h
  have h := (Bool.and_eq_true_iff.1 h).1
  simp only [TestHost.entry] at h
  cases hm : H.load t.beanfile with
  | none =>
    rw [hm] at h
    exact .inr ⟨fun m h => (by cases h), h⟩
  | some m =>
    rw [hm] at h
    simp only [Option.bind_some] at h
    cases he : m.error with
    | none =>
      rw [he] at h
      refine .inr ⟨fun m' h' => ?_, h⟩
      cases h'
      exact he
    | some e =>
      rw [he] at h
      exact .inl ⟨m, e, rfl, he, h⟩

/-- **C92**, what a passing test says of recorded directives before booking: there are as many, and they match. -/
theorem C92_sound_raw {H : TestHost E L} (hH : LawfulTests H) {D : Disk} {t : GoldenTest} (h : H.apiPasses D t = true) {text : Str}
    (hf : D.file t.golden (str% "raw-xf-directives.edn") = some text) {l : List Data} (hr : H.readEdn text = some (.vec l)) :
    ∃ m ds, H.load t.beanfile = some m ∧ m.rawXfDirectives = some ds ∧ ds.length = l.length ∧ H.fits (.vec l) (.vec ds) = true := by
  unfold TestHost.apiPasses at h
  simp only [List.all_cons, List.all_nil, Bool.and_true, Bool.and_eq_true] at h
  have h := h.1
  rw [show D.file t.golden Key.rawXf.file = some text from hf] at h
  dsimp only at h
  rw [hr] at h
  dsimp only at h
  have h := (Bool.and_eq_true_iff.1 h).1
  obtain ⟨l', h1, h2⟩ := hH.fits_vec _ _ h
  simp only [TestHost.entry] at h1 h
  cases hm : H.load t.beanfile with
  | none => rw [hm] at h1; cases h1
  | some m =>
    rw [hm] at h1 h
    simp only [Option.bind_some] at h1 h
    cases hd : m.rawXfDirectives with
    | none => rw [hd] at h1; cases h1
    | some ds =>
      rw [hd] at h1 h
      cases h1
      exact ⟨m, _, rfl, hd, h2, h⟩

/-- A case: an error is recorded, and the test says so. -/
example : ((Ex.testHost Ex.blanks).updateAll (Ex.testDisk (str% "t/bad.beancount") .empty)).2 = true ∧
    (((Ex.testHost Ex.blanks).updateAll (Ex.testDisk (str% "t/bad.beancount") .empty)).1.file (str% "t/bad.golden") (str% "error.edn")).isSome = true ∧
    (Ex.testHost Ex.blanks).testsPass ((Ex.testHost Ex.blanks).updateAll (Ex.testDisk (str% "t/bad.beancount") .empty)).1 = true := by
  refine ⟨?_, ?_, ?_⟩ <;> decide +kernel

end Limabean
