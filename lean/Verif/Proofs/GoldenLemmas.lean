/-
Golden directories, and what creating them writes.
-/
import Verif.Spec.Golden
import Mathlib.Data.List.Nodup

namespace Limabean
namespace Clj

open Spec

variable {E : Ext} {L : BookLib}

/-! ### Paths -/

theorem fileName_suffix (p : Str) : fileName p <:+ p := by
  unfold fileName
  have := (List.takeWhile_prefix (l := p.reverse) (· ≠ '/'))
  rw [← List.reverse_suffix] at this
  simpa using this

theorem fileName_slash (a s : Str) (h : '/' ∉ s) : fileName (a ++ '/' :: s) = s := by
  unfold fileName
  rw [List.reverse_append, List.reverse_cons, List.append_assoc, List.takeWhile_append_of_pos]
  · simp
  · intro c hc
    simp only [List.mem_reverse] at hc
    simp only [ne_eq, decide_eq_true_eq]
    rintro rfl
    exact h hc

theorem isTest_split {p : Str} (h : isTest p = true) (hn : fileName p ≠ str% ".beancount") :
    ∃ a, p = a ++ str% ".beancount" ∧ goldenPath p = a ++ str% ".golden" := by
  simp only [isTest, Bool.and_eq_true, endsWith, List.isSuffixOf_iff_suffix] at h
  obtain ⟨a, ha⟩ := h.1.trans (fileName_suffix p)
  refine ⟨a, ha.symm, ?_⟩
  unfold goldenPath basePath
  rw [← ha]
  have : (a ++ str% ".beancount").take ((a ++ str% ".beancount").length - (str% ".beancount").length) = a := by simp
  rw [this]
  unfold asFile
  split
  · rename_i h'
    simp only [Bool.and_eq_true, endsWith, List.isSuffixOf_iff_suffix] at h'
    obtain ⟨b, rfl⟩ := h'.1
    refine absurd ?_ hn
    rw [← ha, List.append_assoc, List.singleton_append]
    exact fileName_slash b _ (by decide)
  · rfl

theorem goldenPath_inj {p q : Str} (hp : isTest p = true) (hq : isTest q = true) (hp' : fileName p ≠ str% ".beancount")
    (hq' : fileName q ≠ str% ".beancount") (h : goldenPath p = goldenPath q) : p = q := by
  obtain ⟨a, rfl, h1⟩ := isTest_split hp hp'
  obtain ⟨b, rfl, h2⟩ := isTest_split hq hq'
  rw [h1, h2] at h
  rw [List.append_cancel_right h]

/-! ### Writing to a directory -/

/-- The names of the files which an output writes. -/
def Output.names (o : Output E) : List Str := o.filename :: (o.fyi.map Prod.fst).toList

theorem Dir.put_ne {d : Dir} {name text x : Str} (h : x ≠ name) : d.put name text x = d x := if_neg h

theorem Dir.put_self (d : Dir) (name text : Str) : d.put name text name = some text := if_pos rfl

theorem Dir.put_same {d : Dir} {name text : Str} (h : d name = some text) : d.put name text = d := by
  funext x
  unfold Dir.put
  split
  · rename_i h'
    rw [h', h]
  · rfl

/-- What is in the directory after an output has been written. -/
def Output.into (o : Output E) (m : LoadedBeans E) (d : Dir) : Dir :=
  match o.fyi with
  | some f => (d.put o.filename (o.text m).1).put f.1 (f.2 m)
  | none => d.put o.filename (o.text m).1

theorem Output.into_ne (o : Output E) (m : LoadedBeans E) (d : Dir) {x : Str} (h : x ∉ o.names) : o.into m d x = d x := by
  unfold Output.into
  unfold Output.names at h
  cases ho : o.fyi with
  | none =>
    simp only [ho, Option.map_none, Option.toList_none, List.mem_singleton] at h
    exact Dir.put_ne h
  | some f =>
    simp only [ho, Option.map_some, Option.toList_some, List.mem_cons, List.not_mem_nil, or_false, not_or] at h
    dsimp only
    rw [Dir.put_ne h.2, Dir.put_ne h.1]

theorem writeOutputs_cons (m : LoadedBeans E) (o : Output E) (rest : List (Output E)) (d : Dir) :
    writeOutputs m (o :: rest) d = if o.required m (d o.filename).isSome then
      if (o.text m).2 then writeOutputs m rest (o.into m d) else (d.put o.filename (o.text m).1, false)
    else writeOutputs m rest d := by
  rw [writeOutputs]
  unfold Output.into
  cases o.fyi <;> rfl

/-- Files with other names stay. -/
theorem writeOutputs_ne (m : LoadedBeans E) (os : List (Output E)) (d : Dir) {x : Str} (h : ∀ o ∈ os, x ∉ o.names) :
    (writeOutputs m os d).1 x = d x := by
  induction os generalizing d with
  | nil => rfl
  | cons o os ih =>
    rw [writeOutputs_cons]
    have ho := h o (by simp)
    split
    · split
      · rw [ih _ fun o' h' => h o' (by simp [h']), Output.into_ne _ _ _ ho]
      · exact Dir.put_ne fun hx => ho (by simp [Output.names, hx])
    · exact ih _ fun o' h' => h o' (by simp [h'])

/-- What is in the file of an output. -/
theorem writeOutputs_file {m : LoadedBeans E} {os : List (Output E)} (hn : (os.flatMap Output.names).Nodup) {d r : Dir}
    (h : writeOutputs m os d = (r, true)) {o : Output E} (ho : o ∈ os) :
    (o.required m (d o.filename).isSome = true ∧ r o.filename = some (o.text m).1 ∧ (o.text m).2 = true ∧
      ∀ f ∈ o.fyi, r f.1 = some (f.2 m)) ∨
    (o.required m (d o.filename).isSome = false ∧ r o.filename = d o.filename ∧ ∀ f ∈ o.fyi, r f.1 = d f.1) := by
  induction os generalizing d with
  | nil => cases ho
  | cons a os ih =>
    rw [List.flatMap_cons, List.nodup_append] at hn
    obtain ⟨hn1, hn2, hn3⟩ := hn
    have hother : ∀ x ∈ a.names, ∀ o ∈ os, x ∉ o.names := by
      intro x hx o ho hxo
      exact hn3 x hx x (List.mem_flatMap.2 ⟨o, ho, hxo⟩) rfl
    rw [writeOutputs_cons] at h
    rcases List.mem_cons.1 ho with rfl | ho
    · have hfile : o.filename ∈ o.names := by simp [Output.names]
      have hfyi : ∀ f ∈ o.fyi, f.1 ∈ o.names := by
        intro f hf
        simp only [Option.mem_def] at hf
        simp [Output.names, hf]
      split at h
      · rename_i hr
        split at h
        · rename_i ht
          left
          have key := fun x hx => writeOutputs_ne m os (o.into m d) (x := x) (hother x hx)
          rw [h] at key
          dsimp only at key
          refine ⟨hr, ?_, ht, ?_⟩
          · rw [key _ hfile]
            unfold Output.into
            cases hf : o.fyi with
            | none => exact Dir.put_self _ _ _
            | some f =>
              dsimp only
              rw [Dir.put_ne, Dir.put_self]
              intro he
              unfold Output.names at hn1
              simp [hf, he] at hn1
          · intro f hf
            rw [key _ (hfyi f hf)]
            simp only [Option.mem_def] at hf
            unfold Output.into
            rw [hf]
            exact Dir.put_self _ _ _
        · cases h
      · rename_i hr
        right
        have key := fun x hx => writeOutputs_ne m os d (x := x) (hother x hx)
        rw [h] at key
        exact ⟨by simpa using hr, key _ hfile, fun f hf => key _ (hfyi f hf)⟩
    · have hfile : a.filename ∈ a.names := by simp [Output.names]
      split at h
      · split at h
        · have := ih hn2 h ho
          have hx : ∀ x ∈ o.names, x ∉ a.names := fun x hxo hxa => hother x hxa o ho hxo
          have h1 : (a.into m d) o.filename = d o.filename := Output.into_ne _ _ _ (hx _ (by simp [Output.names]))
          rw [h1] at this
          rcases this with h2 | ⟨h2, h3, h4⟩
          · exact .inl h2
          · refine .inr ⟨h2, h3, fun f hf => ?_⟩
            rw [h4 f hf, Output.into_ne]
            simp only [Option.mem_def] at hf
            exact hx _ (by simp [Output.names, hf])
        · cases h
      · exact ih hn2 h ho

/-- Writing again changes nothing. -/
theorem writeOutputs_again {m : LoadedBeans E} {os : List (Output E)} {r : Dir}
    (h : ∀ o ∈ os, o.required m (r o.filename).isSome = true → r o.filename = some (o.text m).1 ∧ (o.text m).2 = true ∧
      ∀ f ∈ o.fyi, r f.1 = some (f.2 m)) : writeOutputs m os r = (r, true) := by
  induction os with
  | nil => rfl
  | cons o os ih =>
    have ih := ih fun o' h' => h o' (by simp [h'])
    rw [writeOutputs_cons]
    split
    · rename_i hr
      obtain ⟨h1, h2, h3⟩ := h o (by simp) hr
      rw [if_pos h2]
      have : o.into m r = r := by
        unfold Output.into
        cases hf : o.fyi with
        | none => exact Dir.put_same h1
        | some f =>
          dsimp only
          rw [Dir.put_same h1, Dir.put_same (h3 f (by simp [hf]))]
      rw [this]
      exact ih
    · exact ih

theorem outputs_nodup (H : TestHost E L) : (H.outputs.flatMap Output.names).Nodup := by
  show [str% "directives.edn", str% "directives.fyi.beancount", str% "raw-xf-directives.edn", str% "raw-xf-directives.fyi.beancount",
    str% "inventory", str% "rollup", str% "journal"].Nodup
  decide

/-- Outputs which are there are written. -/
theorem outputs_there (H : TestHost E L) (m : LoadedBeans E) : ∀ o ∈ H.outputs, o.required m true = true := by
  intro o ho
  simp only [TestHost.outputs, List.mem_cons, List.not_mem_nil, or_false] at ho
  rcases ho with rfl | rfl | rfl | rfl | rfl <;> simp

/-- The directory after it has been updated. -/
theorem updateDir_again {H : TestHost E L} {m : LoadedBeans E} {d r : Dir} (h : H.updateDir m d = (r, true)) : H.updateDir m r = (r, true) := by
  unfold TestHost.updateDir at h ⊢
  split at h
  · refine writeOutputs_again fun o ho hr => ?_
    rcases writeOutputs_file (outputs_nodup H) h ho with ⟨-, h1, h2, h3⟩ | ⟨h1, h2, -⟩
    · exact ⟨h1, h2, h3⟩
    · rw [h2, h1] at hr
      cases hr
  · obtain ⟨rfl, h2⟩ := Prod.mk.inj h
    rw [Dir.put_same (Dir.put_self _ _ _), h2]

/-! ### All tests -/

theorem update_paths (H : TestHost E L) (t : GoldenTest) (D : Disk) : (H.update t D).1.paths = D.paths := by
  unfold TestHost.update
  split <;> rfl

theorem update_ne (H : TestHost E L) (t : GoldenTest) (D : Disk) {x : Str} (h : x ≠ t.golden) : (H.update t D).1.golden x = D.golden x := by
  unfold TestHost.update
  split
  · rfl
  · exact if_neg h

theorem updateEach_paths (H : TestHost E L) (ts : List GoldenTest) (D : Disk) : (H.updateEach ts D).1.paths = D.paths := by
  induction ts generalizing D with
  | nil => rfl
  | cons t ts ih =>
    rw [TestHost.updateEach]
    have := update_paths H t D
    split <;> rename_i h <;> rw [h] at this
    · rw [ih]
      exact this
    · exact this

theorem updateEach_ne (H : TestHost E L) (ts : List GoldenTest) (D : Disk) {x : Str} (h : ∀ t ∈ ts, x ≠ t.golden) :
    (H.updateEach ts D).1.golden x = D.golden x := by
  induction ts generalizing D with
  | nil => rfl
  | cons t ts ih =>
    rw [TestHost.updateEach]
    have := update_ne H t D (h t (by simp))
    split <;> rename_i h' <;> rw [h'] at this
    · rw [ih _ fun t' ht' => h t' (by simp [ht'])]
      exact this
    · exact this

/-- Each golden directory is made from what was in it. -/
theorem updateEach_at {H : TestHost E L} {ts : List GoldenTest} (hn : (ts.map GoldenTest.golden).Nodup) {D D' : Disk}
    (h : H.updateEach ts D = (D', true)) {t : GoldenTest} (ht : t ∈ ts) :
    ∃ m r, H.load t.beanfile = some m ∧ H.updateDir m ((D.golden t.golden).getD .empty) = (r, true) ∧ D'.golden t.golden = some r := by
  induction ts generalizing D with
  | nil => cases ht
  | cons a ts ih =>
    rw [List.map_cons, List.nodup_cons] at hn
    rw [TestHost.updateEach] at h
    split at h
    · rename_i D1 h1
      rcases List.mem_cons.1 ht with rfl | ht
      · have hD := updateEach_ne H ts D1 (x := t.golden) (by
          intro t' ht' he
          exact hn.1 (he ▸ List.mem_map_of_mem ht'))
        rw [h] at hD
        dsimp only at hD
        unfold TestHost.update at h1
        split at h1
        · cases h1
        · rename_i m hm
          cases hr : H.updateDir m ((D.golden t.golden).getD .empty) with
          | mk r1 r2 =>
            simp only [hr, Prod.mk.injEq] at h1
            obtain ⟨rfl, rfl⟩ := h1
            exact ⟨m, r1, hm, hr, by rw [hD]; exact if_pos rfl⟩
      · have hne : t.golden ≠ a.golden := fun he => hn.1 (he ▸ List.mem_map_of_mem ht)
        have := ih hn.2 h ht
        have hg := update_ne H a D hne
        rw [h1] at hg
        dsimp only at hg
        rw [hg] at this
        exact this
    · cases h

theorem golden_nodup {D : Disk} (h : ProperPaths D) : ((findGolden D true).map GoldenTest.golden).Nodup := by
  have : (findGolden D true).map GoldenTest.golden = (D.paths.filter isTest).map goldenPath := by
    unfold findGolden
    simp [List.filter_true]
  rw [this]
  refine List.Nodup.map_on ?_ (h.nodup.filter _)
  intro p hp q hq he
  rw [List.mem_filter] at hp hq
  exact goldenPath_inj hp.2 hq.2 (h.named p hp.1) (h.named q hq.1) he

theorem findGolden_paths {D D' : Disk} (h : D'.paths = D.paths) : findGolden D' true = findGolden D true := by
  unfold findGolden
  rw [h]
  simp

theorem findGolden_sub {D : Disk} {t : GoldenTest} (h : t ∈ findGolden D false) : t ∈ findGolden D true := by
  unfold findGolden at h ⊢
  rw [List.mem_filter] at h ⊢
  exact ⟨h.1, rfl⟩

/-- Updating what has been updated changes nothing. -/
theorem updateEach_again {H : TestHost E L} {ts : List GoldenTest} {D : Disk}
    (h : ∀ t ∈ ts, ∃ m r, H.load t.beanfile = some m ∧ D.golden t.golden = some r ∧ H.updateDir m r = (r, true)) :
    H.updateEach ts D = (D, true) := by
  induction ts with
  | nil => rfl
  | cons t ts ih =>
    obtain ⟨m, r, h1, h2, h3⟩ := h t (by simp)
    have : H.update t D = (D, true) := by
      unfold TestHost.update
      rw [h1]
      dsimp only
      rw [h2]
      simp only [Option.getD_some, h3, Prod.mk.injEq, and_true]
      unfold Disk.set
      obtain ⟨ps, g⟩ := D
      simp only [Disk.mk.injEq, true_and]
      funext x
      split
      · rename_i hx
        rw [hx]
        exact h2.symm
      · rfl
    rw [TestHost.updateEach, this]
    exact ih fun t' ht' => h t' (by simp [ht'])

end Clj
end Limabean
