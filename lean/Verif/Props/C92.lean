/-
C92: golden tests pass after they have been created, and a test which passes says that the ledger is as recorded.

False: what an earlier state of the ledger has left in the golden directory is not removed (`C92_false_left`); the reports of a failed
booking come in another order in the next run (`C92_false_order`); a test passes though the ledger cannot be loaded if only the
directives before booking are recorded (`C92_false_passes`).
-/
import Verif.Proofs.GoldenLemmas
import Verif.Props.C63
import Verif.Props.C91

namespace Limabean

open Clj Spec

variable {E : Ext} {L : BookLib}

namespace Spec

/-- Two runs of the tests: all is the same but for what differs between runs of the programs. -/
structure TwoTestRuns (H H' : TestHost E L) : Prop where
  same : H' = { H with host := { H.host with front := H'.host.front } }
  front : TwoRuns H.host.front H'.host.front
  maps : IsMapOrder H.host.front.ordm

end Spec

namespace Clj

theorem writeOutputs_ok {m : LoadedBeans E} {os : List (Output E)} (h : ∀ o ∈ os, (o.text m).2 = true) (d : Dir) :
    (writeOutputs m os d).2 = true := by
  induction os generalizing d with
  | nil => rfl
  | cons o os ih =>
    have ih := fun d => ih (fun o' h' => h o' (by simp [h'])) d
    rw [writeOutputs_cons, if_pos (h o (by simp))]
    split <;> exact ih _

theorem load_again {H H' : TestHost E L} (h : TwoTestRuns H H') {path : Str} {m : LoadedBeans E} (hm : H.load path = some m)
    (h1 : OneReport m) : H'.load path = some m := by
  obtain ⟨hs, hf, ho⟩ := h
  have hsrv : H'.host.server = H.host.server := by rw [hs]
  unfold TestHost.load at hm ⊢
  rw [hsrv]
  cases hv : H.host.server path with
  | none => rw [hv] at hm; cases hm
  | some s =>
    rw [hv] at hm
    simp only [Option.bind_some] at hm ⊢
    have := C91_again hf ho s
    generalize loadBeanfile H.host.front s = x at this hm
    generalize loadBeanfile H'.host.front s = y at this ⊢
    cases this with
    | exception p => cases hm
    | loaded hl =>
      simp only [Option.some.injEq] at hm ⊢
      subst hm
      cases hl with
      | same => rfl
      | @reports m l l' hp =>
        have hlen := h1 l rfl
        match l, l', hp, hlen with
        | [], l', hp, _ => rw [List.nil_perm.1 hp]
        | [x], l', hp, _ => rw [List.singleton_perm.1 hp]

/-- Evaluating a report on a ledger which is accepted. -/
theorem query_shown {H : TestHost E L} (hH : LawfulTests H) {path : Str} {m : LoadedBeans E} (hm : H.load path = some m)
    (he : m.error = none) (q : Query) (ht : (H.report q m).2 = true) :
    (tryEval H.host path q.expr).status = 0 ∧ (tryEval H.host path q.expr).out.flatten = (H.report q m).1 := by
  obtain ⟨e, rest, h1, h2⟩ := hH.eval q
  unfold TestHost.load at hm
  cases hs : H.host.server path with
  | none => rw [hs] at hm; cases hm
  | some s =>
    rw [hs] at hm
    simp only [Option.bind_some] at hm
    cases hl : loadBeanfile H.host.front s with
    | error p => rw [hl] at hm; cases hm
    | ok m1 =>
      rw [hl] at hm
      cases hm
      have hu : userLoad H.host.front {} path (some s) =
          (Globals.assign (Globals.assign {} none) (some m), [.loaded (m.rawDirectives.getD []).length path,
            .result (m.directives.getD []).length], true) := by
        unfold userLoad
        dsimp only
        rw [hl]
        dsimp only
        rw [show printErrors H.host.front m.pod m.error = (m.pod, [], true) by rw [he]; rfl]
        rw [if_pos rfl, show m.error.isSome = false by rw [he]; rfl]
        rfl
      unfold tryEval
      rw [h1]
      dsimp only
      rw [hs, hu]
      dsimp only
      rw [h2 _ m rfl]
      unfold TestHost.report at ht
      dsimp only at ht
      rw [if_pos ht]
      exact ⟨rfl, rfl⟩

theorem and_true_intro {a b : Bool} (ha : a = true) (hb : b = true) : (a && b) = true := by rw [ha, hb]; rfl

/-- One of the outputs. -/
def TestHost.output (H : TestHost E L) (i : Fin 5) : Output E := H.outputs.get i

theorem TestHost.output_mem (H : TestHost E L) (i : Fin 5) : H.output i ∈ H.outputs := List.get_mem _ _

theorem api_accepted {H H' : TestHost E L} (hs : H'.readEdn = H.readEdn ∧ H'.fits = H.fits) (hH : LawfulTests H)
    {m : LoadedBeans E} {t : GoldenTest} (hm' : H'.load t.beanfile = some m) (hl : LegibleLoad H m) {d r : Dir} (hd : NothingLeft m d)
    (he : m.error = none) (hr : H.updateDir m d = (r, true)) {D : Disk} (hD : D.golden t.golden = some r) : H'.apiPasses D t = true := by
  have hw : writeOutputs m H.outputs d = (r, true) := by
    unfold TestHost.updateDir at hr
    rw [he] at hr
    exact hr
  have hfile : ∀ x, D.file t.golden x = r x := fun x => by rw [Disk.file, hD]; rfl
  unfold TestHost.apiPasses
  simp only [List.all_cons, List.all_nil, Bool.and_true, Bool.and_eq_true, hfile, hm', hs.1, hs.2]
  refine ⟨?_, ?_, ?_⟩
  · rcases writeOutputs_file (outputs_nodup H) hw (o := H.output 1) (H.output_mem _) with ⟨-, h1, -⟩ | ⟨h1, h2, -⟩
    · rw [show r Key.rawXf.file = _ from h1]
      dsimp only
      rw [show H.readEdn ((H.output 1).text m).1 = _ from hl.rawXf]
      exact and_true_intro (hH.fits_self _) rfl
    · have : d Key.rawXf.file = none := by
        cases hx : d Key.rawXf.file with
        | none => rfl
        | some x =>
          rw [show d (H.output 1).filename = some x from hx] at h1
          rw [Option.isSome_some, outputs_there H m _ (H.output_mem _)] at h1
          cases h1
      rw [show r Key.rawXf.file = _ from h2, show d (H.output 1).filename = none from this]
  · rcases writeOutputs_file (outputs_nodup H) hw (o := H.output 0) (H.output_mem _) with ⟨-, h1, -⟩ | ⟨h1, h2, -⟩
    · rw [show r Key.directives.file = _ from h1]
      dsimp only
      rw [show H.readEdn ((H.output 0).text m).1 = _ from hl.directives]
      exact and_true_intro (hH.fits_self _) rfl
    · have : d Key.directives.file = none := by
        cases hx : d Key.directives.file with
        | none => rfl
        | some x =>
          rw [show d (H.output 0).filename = some x from hx] at h1
          rw [Option.isSome_some, outputs_there H m _ (H.output_mem _)] at h1
          cases h1
      rw [show r Key.directives.file = _ from h2, show d (H.output 0).filename = none from this]
  · have := writeOutputs_ne m H.outputs d (x := str% "error.edn") (by
      intro o ho hx
      have : str% "error.edn" ∈ H.outputs.flatMap Output.names := List.mem_flatMap.2 ⟨o, ho, hx⟩
      revert this
      show ¬ str% "error.edn" ∈ [str% "directives.edn", str% "directives.fyi.beancount", str% "raw-xf-directives.edn",
        str% "raw-xf-directives.fyi.beancount", str% "inventory", str% "rollup", str% "journal"]
      decide)
    rw [hw, hd.accepted he] at this
    rw [show r Key.error.file = none from this]

theorem app_accepted {H H' : TestHost E L} (hs : H'.report = H.report) (hH' : LawfulTests H')
    {m : LoadedBeans E} {t : GoldenTest} (hm' : H'.load t.beanfile = some m) {d r : Dir} (he : m.error = none)
    (hr : H.updateDir m d = (r, true)) {D : Disk} (hD : D.golden t.golden = some r) : H'.appPasses D t = true := by
  have hw : writeOutputs m H.outputs d = (r, true) := by
    unfold TestHost.updateDir at hr
    rw [he] at hr
    exact hr
  have hfile : ∀ x, D.file t.golden x = r x := fun x => by rw [Disk.file, hD]; rfl
  have key : ∀ q : Query, ∀ o ∈ H.outputs, o.filename = q.name → (o.text m = H.report q m) → (match r q.name with
      | none => true
      | some text => (tryEval H'.host t.beanfile q.expr).status == 0 && (tryEval H'.host t.beanfile q.expr).out.flatten == text) = true := by
    intro q o ho hn ht
    rcases writeOutputs_file (outputs_nodup H) hw ho with ⟨-, h1, h2, -⟩ | ⟨h1, h2, -⟩
    · rw [← hn, h1]
      rw [ht, ← hs] at h2
      obtain ⟨h3, h4⟩ := query_shown hH' hm' he q h2
      dsimp only
      rw [h3, h4, ht, hs]
      simp
    · have : d o.filename = none := by
        cases hx : d o.filename with
        | none => rfl
        | some x =>
          rw [hx, Option.isSome_some, outputs_there H m o ho] at h1
          cases h1
      rw [← hn, h2, this]
  unfold TestHost.appPasses
  simp only [List.all_cons, List.all_nil, Bool.and_true, Bool.and_eq_true, hfile]
  exact ⟨key .inventory (H.output 2) (H.output_mem _) rfl rfl, key .rollup (H.output 3) (H.output_mem _) rfl rfl,
    key .journal (H.output 4) (H.output_mem _) rfl rfl⟩

theorem passes_rejected {H H' : TestHost E L} (hs : H'.readEdn = H.readEdn ∧ H'.fits = H.fits ∧ H'.errorData = H.errorData)
    (hH : LawfulTests H) {m : LoadedBeans E} {t : GoldenTest} (hm' : H'.load t.beanfile = some m) (hl : LegibleLoad H m) {d r : Dir}
    (hd : NothingLeft m d) {e : LoadError} (he : m.error = some e) (hr : H.updateDir m d = (r, true)) {D : Disk}
    (hD : D.golden t.golden = some r) : H'.appPasses D t = true ∧ H'.apiPasses D t = true := by
  have hfile : ∀ x, D.file t.golden x = r x := fun x => by rw [Disk.file, hD]; rfl
  obtain ⟨hr, hmade⟩ : r = d.put (str% "error.edn") (H.write (H.errorData e)) ∧ e.written = true := by
    unfold TestHost.updateDir at hr
    rw [he] at hr
    exact ⟨(Prod.mk.inj hr).1.symm, (Prod.mk.inj hr).2⟩
  have hno := hd.rejected (by rw [he]; simp)
  have hx : ∀ x ∈ [str% "directives.edn", str% "raw-xf-directives.edn", str% "inventory", str% "rollup", str% "journal"], r x = none := by
    intro x hx
    rw [hr, Dir.put_ne, hno x hx]
    revert hx
    revert x
    decide
  unfold TestHost.appPasses TestHost.apiPasses
  simp only [List.all_cons, List.all_nil, Bool.and_true, Bool.and_eq_true, hfile, hm', hs.1, hs.2.1]
  refine ⟨⟨?_, ?_, ?_⟩, ?_, ?_, ?_⟩
  · rw [hx Query.inventory.name (by decide)]
  · rw [hx Query.rollup.name (by decide)]
  · rw [hx Query.journal.name (by decide)]
  · rw [hx Key.rawXf.file (by decide)]
  · rw [hx Key.directives.file (by decide)]
  · rw [show r Key.error.file = some (H.write (H.errorData e)) by rw [hr]; exact Dir.put_self _ _ _]
    dsimp only
    rw [show H.readEdn _ = _ from hl.error e he]
    simp only [TestHost.entry, Option.bind_some, he, hs.2.2]
    exact and_true_intro (hH.fits_self _) (by simp [TestHost.apiPasses.canMatch, he, hmade])

end Clj

/-- **C92, as far as it is true**: if golden files have been created without an exception, then all tests pass, in that run and in any
other. Missing: golden directories with something left over from an earlier state of the ledger (`C92_false_left`), and ledgers in which
booking finds more than one fault (`C92_false_order`). -/
theorem C92_partial {H H' : TestHost E L} (h2 : TwoTestRuns H H') (hH : LawfulTests H) {D D' : Disk} (hp : ProperPaths D)
    (h : ∀ p ∈ D.paths, isTest p = true → ∀ m, H.load p = some m →
      LegibleLoad H m ∧ OneReport m ∧ NothingLeft m ((D.golden (goldenPath p)).getD .empty))
    (hu : H.updateAll D = (D', true)) : H'.testsPass D' = true := by
  have hpaths : D'.paths = D.paths := by
    have := updateEach_paths H (findGolden D true) D
    rw [show H.updateEach (findGolden D true) D = (D', true) from hu] at this
    exact this
  have hs : H'.readEdn = H.readEdn ∧ H'.fits = H.fits ∧ H'.errorData = H.errorData ∧ H'.report = H.report := by
    rw [h2.same]
    exact ⟨rfl, rfl, rfl, rfl⟩
  have hH' : LawfulTests H' := by
    rw [h2.same]
    exact ⟨hH.fits_self, hH.fits_vec, hH.eval⟩
  unfold TestHost.testsPass
  rw [List.all_eq_true]
  intro t ht
  have ht := findGolden_sub ht
  rw [findGolden_paths hpaths] at ht
  obtain ⟨m, r, hm, hr, hD⟩ := updateEach_at (golden_nodup hp) hu ht
  have hpath : t.beanfile ∈ D.paths ∧ isTest t.beanfile = true ∧ t.golden = goldenPath t.beanfile := by
    unfold findGolden at ht
    rw [List.mem_filter, List.mem_map] at ht
    obtain ⟨⟨p, hp, rfl⟩, -⟩ := ht
    rw [List.mem_filter] at hp
    exact ⟨hp.1, hp.2, rfl⟩
  obtain ⟨hl, h1, hleft⟩ := h _ hpath.1 hpath.2.1 m hm
  rw [← hpath.2.2] at hleft
  have hm' := load_again h2 hm h1
  rw [Bool.and_eq_true]
  cases he : m.error with
  | none =>
    exact ⟨app_accepted hs.2.2.2 hH' hm' he hr hD, api_accepted ⟨hs.1, hs.2.1⟩ hH hm' hl hleft he hr hD⟩
  | some e => exact passes_rejected ⟨hs.1, hs.2.1, hs.2.2.1⟩ hH hm' hl hleft he hr hD

/-- **C92**, creating them again changes nothing. -/
theorem C92_again {H : TestHost E L} {D D' : Disk} (hp : ProperPaths D) (hu : H.updateAll D = (D', true)) : H.updateAll D' = (D', true) := by
  have hpaths : D'.paths = D.paths := by
    have := updateEach_paths H (findGolden D true) D
    rw [show H.updateEach (findGolden D true) D = (D', true) from hu] at this
    exact this
  unfold TestHost.updateAll
  rw [findGolden_paths hpaths]
  refine updateEach_again fun t ht => ?_
  obtain ⟨m, r, hm, hr, hD⟩ := updateEach_at (golden_nodup hp) hu ht
  exact ⟨m, r, hm, hD, updateDir_again hr⟩

/-- **C92**, nothing else is written: not to other directories than those of tests, and there no files of other names. -/
theorem C92_only (H : TestHost E L) (D : Disk) (dir name : Str) (h : (H.updateAll D).1.file dir name ≠ D.file dir name) :
    (∃ p ∈ D.paths, isTest p = true ∧ dir = goldenPath p) ∧ name ∈ goldenNames := by
  have key : ∀ (ts : List GoldenTest) (D : Disk), (H.updateEach ts D).1.file dir name ≠ D.file dir name →
      (∃ t ∈ ts, dir = t.golden) ∧ name ∈ goldenNames := by
    intro ts
    induction ts with
    | nil => intro D h; exact absurd rfl h
    | cons t ts ih =>
      intro D h
      have hone : ∀ D : Disk, (H.update t D).1.file dir name ≠ D.file dir name → dir = t.golden ∧ name ∈ goldenNames := by
        intro D h
        by_cases hd : dir = t.golden
        · refine ⟨hd, ?_⟩
          by_contra hn
          apply h
          unfold TestHost.update
          split
          · rfl
          · rename_i m hm
            subst hd
            simp only [Disk.file, Disk.set, if_pos, Option.bind_some]
            have : (H.updateDir m ((D.golden t.golden).getD .empty)).1 name = ((D.golden t.golden).getD .empty) name := by
              unfold TestHost.updateDir
              split
              · refine writeOutputs_ne m _ _ fun o ho hx => hn ?_
                have : name ∈ H.outputs.flatMap Output.names := List.mem_flatMap.2 ⟨o, ho, hx⟩
                have hsub : ∀ x ∈ H.outputs.flatMap Output.names, x ∈ goldenNames := by
                  show ∀ x ∈ [str% "directives.edn", str% "directives.fyi.beancount", str% "raw-xf-directives.edn",
                    str% "raw-xf-directives.fyi.beancount", str% "inventory", str% "rollup", str% "journal"], x ∈ goldenNames
                  decide
                exact hsub _ this
              · exact Dir.put_ne fun hx => hn (by rw [hx]; decide)
            rw [this]
            cases D.golden t.golden <;> rfl
        · exact absurd (by simp only [Disk.file, update_ne H t D hd]) h
      rw [TestHost.updateEach] at h
      by_cases hx : (H.update t D).1.file dir name = D.file dir name
      · split at h
        · rename_i D1 h1
          rw [h1] at hx
          obtain ⟨⟨t', ht', h3⟩, h4⟩ := ih D1 (by rw [hx]; exact h)
          exact ⟨⟨t', by simp [ht'], h3⟩, h4⟩
        · rename_i D1 h1
          rw [h1] at hx
          exact absurd hx h
      · obtain ⟨h3, h4⟩ := hone D hx
        exact ⟨⟨t, by simp, h3⟩, h4⟩
  obtain ⟨⟨t, ht, rfl⟩, hn⟩ := key _ D h
  refine ⟨?_, hn⟩
  unfold findGolden at ht
  rw [List.mem_filter, List.mem_map] at ht
  obtain ⟨⟨p, hp, rfl⟩, -⟩ := ht
  rw [List.mem_filter] at hp
  exact ⟨p, hp.1, hp.2, rfl⟩

/-- **C92**, what is written is not taken for a test. -/
theorem C92_written (dir name : Str) (h : name ∈ goldenNames) : isTest (dir ++ '/' :: name) = false := by
  have : fileName (dir ++ '/' :: name) = name := fileName_slash dir name (by revert h; revert name; decide)
  unfold isTest
  rw [this]
  clear this
  revert h
  revert name
  decide

/-- **C92**, what a passing test says: if it passes, and there is a file with directives, then the beanfile is loaded without an error,
with as many directives, which match them. -/
theorem C92_sound {H : TestHost E L} (hH : LawfulTests H) {D : Disk} {t : GoldenTest} (h : H.apiPasses D t = true) {text : Str}
    (hf : D.file t.golden (str% "directives.edn") = some text) {l : List Data} (hr : H.readEdn text = some (.vec l)) :
    ∃ m ds, H.load t.beanfile = some m ∧ m.error = none ∧ m.directives = some ds ∧ ds.length = l.length ∧ H.fits (.vec l) (.vec ds) = true := by
  unfold TestHost.apiPasses at h
  simp only [List.all_cons, List.all_nil, Bool.and_true, Bool.and_eq_true] at h
  have h := h.2.1
  rw [show D.file t.golden Key.directives.file = some text from hf] at h
  dsimp only at h
  rw [hr] at h
  dsimp only at h
  have h := (Bool.and_eq_true_iff.1 h).1
  obtain ⟨l', h1, h2⟩ := hH.fits_vec _ _ h
  simp only [TestHost.entry] at h1 h
  cases hm : H.load t.beanfile with
  | none => rw [hm] at h1; cases h1
  | some m =>
    rw [hm] at h1 h
    simp only [Option.bind_some] at h1 h
    cases hd : m.directives with
    | none => rw [hd] at h1; cases h1
    | some ds =>
      rw [hd] at h1 h
      cases h1
      refine ⟨m, l', rfl, ?_, hd, h2, h⟩
      have hl : ∃ s, loadBeanfile H.host.front s = .ok m := by
        unfold TestHost.load at hm
        cases hs : H.host.server t.beanfile with
        | none => rw [hs] at hm; cases hm
        | some s =>
          rw [hs] at hm
          simp only [Option.bind_some] at hm
          split at hm
          · rename_i m1 h3
            cases hm
            exact ⟨s, h3⟩
          · cases hm
      obtain ⟨s, hs⟩ := hl
      have hp := C40_result _ hs
      cases he : m.error with
      | none => rfl
      | some e =>
        rw [he] at hp
        have h4 : (progress m)[3]? = some true := by simp [progress, hd]
        rw [hp] at h4
        cases e with
        | dctErrors raw l => cases raw <;> cases h4
        | pluginException raw => cases raw <;> cases h4
        | _ => cases h4

namespace Ex

/-- The beanfiles of the tests. -/
def testBeanfile (p : Str) : Option (Server Toy.ext) :=
  if p = str% "t/good.beancount" then some (withPlugin ledger)
  else if p = str% "t/bad.beancount" then some (withPlugin unopened)
  else if p = str% "t/pads.beancount" then some (withPlugin twoPads)
  else none

/-- A report shows how many directives there are. -/
def testShown (_ : Query) (ds : List Data) (_ : Option Data) : List Str × Bool := ([List.replicate ds.length '|'], true)

def testSession : Host Toy.ext Toy.lib where
  front := passingFront
  isFile p := (testBeanfile p).isSome
  server := testBeanfile
  Expr := Query
  read t := ([Query.inventory, .rollup, .journal].find? fun q => q.expr = t).map fun q => (q, [])
  eval q g := match g.beans with
    | some m => testShown q (m.directives.getD []) m.registry
    | none => ([], true)
  version := str% "1"

/-- An error is told by the beginnings of the spans. -/
def testError : LoadError → Data
  | .booking (some rs) => .str (rs.map fun r => match spanNumbers (r.get (str% "span")) with
      | [_, b, _] => Char.ofNat (65 + b.m.toNat)
      | _ => '?')
  | _ => .str (str% "?")

/-- Texts and data, for ledgers which differ in their lengths. -/
def testHost (dirs : Nat → List Data) : TestHost Toy.ext Toy.lib where
  host := testSession
  write
    | .str s => 's' :: s
    | .vec l => 'v' :: List.replicate l.length '|'
    | _ => str% "n"
  readEdn
    | 's' :: s => some (.str s)
    | 'v' :: s => some (.vec (dirs s.length))
    | ['n'] => some .nil
    | _ => none
  errorData := testError
  fits
    | .str s, .str s' => s = s'
    | .vec l, .vec l' => l.length = l'.length
    | .str _, _ => false
    | .vec _, _ => false
    | _, .str _ => false
    | _, .vec _ => false
    | _, _ => true
  shown := testShown

theorem testHost_lawful (dirs : Nat → List Data) : LawfulTests (testHost dirs) where
  fits_self x := by cases x <;> simp [testHost]
  fits_vec l y h := by
    cases y with
    | vec l' => exact ⟨l', rfl, by simpa [testHost, eq_comm] using h⟩
    | _ => simp [testHost] at h
  eval q := ⟨q, [], by cases q <;> rfl, fun g m h => by
    show (match g.beans with | some m => testShown q (m.directives.getD []) m.registry | none => ([], true)) = _
    rw [h]
    rfl⟩

/-- Data of that length. -/
def blanks (n : Nat) : List Data := List.replicate n .nil

theorem testHost_load (dirs : Nat → List Data) (p : Str) : (testHost dirs).load p = (testHost blanks).load p := by
  unfold TestHost.load
  rw [show (testHost dirs).host = (testHost blanks).host from rfl]

/-- A run of the tests with other orders and hash codes. -/
def otherTests (dirs : Nat → List Data) : TestHost Toy.ext Toy.lib :=
  { testHost dirs with host := { testSession with front := otherRun passingFront } }

theorem twoTestRuns (dirs : Nat → List Data) : TwoTestRuns (testHost dirs) (otherTests dirs) where
  same := rfl
  front := twoRuns rfl rfl
  maps _ := .refl _

/-- The directory of one test, with a golden directory. -/
def testDisk (path : Str) (d : Dir) : Disk := { paths := [str% "t", path], golden := fun x => if x = goldenPath path then some d else none }

end Ex

/-- **C92 is false**: as in the documentation, somebody has made an empty file for the directives; the beanfile cannot be booked; the
golden files are created without an exception, and the test fails in the same run. -/
theorem C92_false_left :
    ((Ex.testHost Ex.blanks).updateAll (Ex.testDisk (str% "t/bad.beancount") (Dir.empty.put (str% "directives.edn") []))).2 = true ∧
    (Ex.testHost Ex.blanks).testsPass ((Ex.testHost Ex.blanks).updateAll
      (Ex.testDisk (str% "t/bad.beancount") (Dir.empty.put (str% "directives.edn") []))).1 = false ∧
    LawfulTests (Ex.testHost Ex.blanks) := by
  refine ⟨?_, ?_, Ex.testHost_lawful _⟩ <;> decide +kernel

/-- **C92 is false** in another run for a beanfile with two faults. -/
theorem C92_false_order :
    ((Ex.testHost Ex.blanks).updateAll (Ex.testDisk (str% "t/pads.beancount") .empty)).2 = true ∧
    (Ex.testHost Ex.blanks).testsPass ((Ex.testHost Ex.blanks).updateAll (Ex.testDisk (str% "t/pads.beancount") .empty)).1 = true ∧
    (Ex.otherTests Ex.blanks).testsPass ((Ex.testHost Ex.blanks).updateAll (Ex.testDisk (str% "t/pads.beancount") .empty)).1 = false ∧
    LawfulTests (Ex.testHost Ex.blanks) ∧ TwoTestRuns (Ex.testHost Ex.blanks) (Ex.otherTests Ex.blanks) := by
  refine ⟨?_, ?_, ?_, Ex.testHost_lawful _, Ex.twoTestRuns _⟩ <;> decide +kernel

/-- **C92 is false** for what is recorded before booking: the test passes though the beanfile cannot be booked. -/
theorem C92_false_passes :
    (Ex.testHost Ex.blanks).testsPass (Ex.testDisk (str% "t/bad.beancount") (Dir.empty.put (str% "raw-xf-directives.edn") (str% "v|"))) = true ∧
    (Ex.loadError Ex.passingFront (Ex.withPlugin Ex.unopened)).isSome ∧ Ex.testBeanfile (str% "t/bad.beancount") = some (Ex.withPlugin Ex.unopened) ∧
    LawfulTests (Ex.testHost Ex.blanks) := by
  refine ⟨?_, ?_, rfl, Ex.testHost_lawful _⟩ <;> decide +kernel

/-- A case of `C92_partial`: an accepted ledger, and files to be rewritten for its directives and a report. -/
example : ∃ dirs D', ((Ex.testHost dirs).updateAll (Ex.testDisk (str% "t/good.beancount")
      ((Dir.empty.put (str% "directives.edn") []).put (str% "inventory") []))) = (D', true) ∧
    (Ex.otherTests dirs).testsPass D' = true ∧
    D'.file (str% "t/good.golden") (str% "inventory") = some (List.replicate 12 '|') ∧
    D'.file (str% "t/good.golden") (str% "raw-xf-directives.edn") = some ('v' :: List.replicate 11 '|') ∧
    D'.file (str% "t/good.golden") (str% "directives.edn") = some ('v' :: List.replicate 12 '|') := by
  have h : (match (Ex.testHost Ex.blanks).load (str% "t/good.beancount") with
    | some m => m.error.isNone && m.rawXfDirectives.map List.length == some 11 && m.directives.map List.length == some 12
    | none => false) = true := by decide +kernel
  cases hm : (Ex.testHost Ex.blanks).load (str% "t/good.beancount") with
  | none => rw [hm] at h; cases h
  | some m =>
    rw [hm] at h
    simp only [Bool.and_eq_true, Option.isNone_iff_eq_none, beq_iff_eq, Option.map_eq_some_iff] at h
    obtain ⟨⟨he, raw, hraw, hr⟩, ds, hds, hd⟩ := h
    let dirs : Nat → List Data := fun n => if n = 12 then ds else raw
    have hm' : (Ex.testHost dirs).load (str% "t/good.beancount") = some m := (Ex.testHost_load _ _).trans hm
    let D := Ex.testDisk (str% "t/good.beancount") ((Dir.empty.put (str% "directives.edn") []).put (str% "inventory") [])
    have hfind : findGolden D true = [⟨str% "t/good.beancount", str% "t/good.golden"⟩] := by decide +kernel
    have hg : D.golden (str% "t/good.golden") = some ((Dir.empty.put (str% "directives.edn") []).put (str% "inventory") []) := rfl
    have hw : (Ex.testHost dirs).updateDir m ((Dir.empty.put (str% "directives.edn") []).put (str% "inventory") []) =
        writeOutputs m (Ex.testHost dirs).outputs ((Dir.empty.put (str% "directives.edn") []).put (str% "inventory") []) := by
      unfold TestHost.updateDir
      rw [he]
    cases hx : writeOutputs m (Ex.testHost dirs).outputs ((Dir.empty.put (str% "directives.edn") []).put (str% "inventory") []) with
    | mk r ok =>
      have hok := writeOutputs_ok (m := m) (os := (Ex.testHost dirs).outputs) (by
        intro o ho
        simp only [TestHost.outputs, List.mem_cons, List.not_mem_nil, or_false] at ho
        rcases ho with rfl | rfl | rfl | rfl | rfl <;> rfl) ((Dir.empty.put (str% "directives.edn") []).put (str% "inventory") [])
      rw [hx] at hok
      dsimp only at hok
      subst hok
      have hu : (Ex.testHost dirs).updateAll D = (D.set (str% "t/good.golden") r, true) := by
        unfold TestHost.updateAll
        rw [hfind]
        simp only [TestHost.updateEach, TestHost.update, hm', hg, Option.getD_some, hw, hx]
      have hfile : ∀ x, (D.set (str% "t/good.golden") r).file (str% "t/good.golden") x = r x := fun x => rfl
      have hout := fun i => writeOutputs_file (outputs_nodup (Ex.testHost dirs)) hx ((Ex.testHost dirs).output_mem i)
      refine ⟨dirs, _, hu, ?_, ?_, ?_, ?_⟩
      · refine C92_partial (Ex.twoTestRuns dirs) (Ex.testHost_lawful dirs) ⟨by decide, by decide⟩ ?_ hu
        intro p hp ht m' hm2
        have : p = str% "t/good.beancount" := by
          have hp : p ∈ [str% "t", str% "t/good.beancount"] := hp
          simp only [List.mem_cons, List.not_mem_nil, or_false] at hp
          rcases hp with rfl | rfl
          · exact absurd ht (by decide)
          · rfl
        subst this
        rw [hm'] at hm2
        cases hm2
        refine ⟨⟨?_, ?_, ?_⟩, ?_, ?_⟩
        · rw [hds]
          show some (Data.vec (dirs (List.replicate ds.length '|').length)) = _
          rw [List.length_replicate, hd]
          rfl
        · rw [hraw]
          show some (Data.vec (dirs (List.replicate raw.length '|').length)) = _
          rw [List.length_replicate, hr]
          rfl
        · intro e h'
          rw [he] at h'
          cases h'
        · intro l h'
          rw [he] at h'
          cases h'
        · exact ⟨fun _ => by decide, fun h' => absurd he h'⟩
      · rcases hout 2 with ⟨-, h1, -⟩ | ⟨h1, -⟩
        · rw [hfile]
          refine Eq.trans h1 ?_
          show some [List.replicate (m.directives.getD []).length '|'].flatten = _
          rw [hds, Option.getD_some, hd]
          rfl
        · cases h1
      · rcases hout 1 with ⟨-, h1, -⟩ | ⟨h1, -⟩
        · rw [hfile]
          refine Eq.trans h1 ?_
          show some ((Ex.testHost dirs).write (ofDirectives m.rawXfDirectives)) = _
          rw [hraw]
          show some ('v' :: List.replicate raw.length '|') = _
          rw [hr]
        · have h1 : (m.rawXfDirectives.isSome || _) = false := h1
          rw [hraw] at h1
          cases h1
      · rcases hout 0 with ⟨-, h1, -⟩ | ⟨h1, -⟩
        · rw [hfile]
          refine Eq.trans h1 ?_
          show some ((Ex.testHost dirs).write (ofDirectives m.directives)) = _
          rw [hds]
          show some ('v' :: List.replicate ds.length '|') = _
          rw [hd]
        · have h1 : (m.bookedXfDirectives.isSome || true) = false := h1
          rw [Bool.or_true] at h1
          cases h1

end Limabean
