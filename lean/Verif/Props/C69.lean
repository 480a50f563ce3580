/-
C69: every directive of a loaded ledger satisfies the specification which the program has for directives.

This is false of the code if there are no plugins: then nothing is checked (`C69_false`). With plugins it holds, whatever they do.
-/
import Verif.Props.C66

namespace Limabean

open Spec Clj

variable {E : Ext} {L : BookLib}

/-- **C69**, running plugins: if they run to the end, each directive satisfies the specification or carries an error. -/
theorem C69_run {hash : Nat → Nat} (hinj : Function.Injective hash) {valid : Data → Bool} {phase : Option Str} {ps : List Plugin} {next : Nat}
    {ds out : List Obj} (hd : ∀ o ∈ ds, o.tok < next) (hn : (ds.map Obj.tok).Nodup) (h : runPlugins hash valid phase ps next ds = some out) :
    ∀ o ∈ out, isErr o.data = true ∨ valid o.data = true := fun o ho =>
  runPlugins_checked hinj hd hn h o ho

/-- **C69**, what is refused: plugins which would pass on, at the end, a directive without an error which does not satisfy the
specification do not run to the end. -/
theorem C69_refused {hash : Nat → Nat} (hinj : Function.Injective hash) {valid : Data → Bool} {phase : Option Str} {ps : List Plugin} {next : Nat}
    {ds : List Obj} (hd : ∀ o ∈ ds, o.tok < next) (hn : (ds.map Obj.tok).Nodup) {l : List Data}
    (hl : throughAll phase ps (ds.map Obj.data) = some l) (hbad : ∃ d ∈ l, isErr d = false ∧ valid d = false) :
    runPlugins hash valid phase ps next ds = none := by
  cases h : runPlugins hash valid phase ps next ds with
  | none => rfl
  | some out =>
    exfalso
    rw [C45_run hinj hd h] at hl
    cases hl
    obtain ⟨d, hdm, h1, h2⟩ := hbad
    obtain ⟨o, ho, rfl⟩ := List.mem_map.1 hdm
    rcases C69_run hinj hd hn h o ho with hc | hc
    · rw [h1] at hc
      cases hc
    · rw [h2] at hc
      cases hc

/-- **C69**, in part: if loading ends without an error, all directives after the raw plugins satisfy the specification, if there are raw
plugins; and all directives of the ledger do, if there are booked plugins. Missing: ledgers without plugins. -/
theorem C69_ledger_partial (F : Front E L) (hinj : Function.Injective F.hash) (ho : IsMapOrder F.ordm) (hs : IsOrder F.ord) (hE : SpanStore E)
    (hL : DatesExist L) (hvalid : F.valid = validDct) (src : E.Sources) {p : Parsed} (hp : OptionsOk p.options)
    (hd : ∀ d ∈ p.directives, DatesOk d) {m : LoadedBeans E} (h : loadBeanfile F (.ready src (.ok p)) = .ok m) (he : m.error = none) :
    (rawPlugins F p m.options ≠ [] → ∃ xs, m.rawXfDirectives = some xs ∧ ∀ x ∈ xs, validDct true x = true) ∧
    (bookedPlugins F p m.options ≠ [] → ∃ ys, m.directives = some ys ∧ ∀ y ∈ ys, validDct false y = true) := by
  obtain ⟨src', k, xs, ds, out, w, bs, ys, -, -, -, -, -, -, h5, h6, h7, -⟩ := ledger_stages F hinj ho hs hE hL src hp hd h he
  refine ⟨fun hr => ⟨xs, ?_, (h5 hvalid).1 hr⟩, fun hb => ⟨ys, h7, (h5 hvalid).2 hb⟩⟩
  rw [h6, if_pos hr]

namespace Ex

/-- Whether the directives which were loaded have `p`, if there was no error. -/
def loadedAll (F : Front Toy.ext Toy.lib) (s : Server Toy.ext) (p : Data → Bool) : Option (List Bool) := match loadBeanfile F s with
  | .ok m => if m.error.isSome then none else m.directives.map fun l => l.map p
  | .error _ => none

/-- A front end which checks, and in which each plugin is both raw and booked. -/
def checkedFront : Front Toy.ext Toy.lib := { stampingFront with valid := validDct }

/-- A plugin which adds a note without a comment at the end. -/
def careless : Plugin where
  name := []
  step l := [.old (l.length - 1)]
  finish _ := [.new (.map [(str% "date", .date (Toy.day 5)), (str% "dct", .kw (str% "note")), (str% "acc", .str current)])]

end Ex

/-- C69 is false: without plugins a ledger is loaded with a directive which does not satisfy the specification, for its tolerance is an
integer. -/
theorem C69_false : Ex.loadedAll Ex.checkedFront (Toy.server Ex.tolerant) (validDct false) = some [true, false] := by decide +kernel

/-- Non-vacuity of `C69_ledger_partial`: a ledger with a plugin which replaces all directives, before and after booking; the other
hypotheses are those of C66. -/
example : Ex.checkedFront.valid = validDct ∧
    Ex.loadedAll Ex.checkedFront (Ex.withPlugin Ex.patient) (validDct false) = some [true, true] ∧
    (∀ o, rawPlugins Ex.checkedFront { directives := Ex.patient, options := Toy.options, plugins := [(str% "passing", none)] } o ≠ []) ∧
    (∀ o, bookedPlugins Ex.checkedFront { directives := Ex.patient, options := Toy.options, plugins := [(str% "passing", none)] } o ≠ []) :=
  ⟨rfl, by decide +kernel, fun _ => List.cons_ne_nil _ _, fun _ => List.cons_ne_nil _ _⟩

/-- Non-vacuity of `C69_refused`: a plugin which adds a note without a comment. -/
example : ((throughAll none [Ex.careless] []).map fun l => l.map fun d => (isErr d, validDct true d)) = some [(false, false)] ∧
    (runPlugins id (validDct true) none [Ex.careless] 0 []).isNone = true ∧
    ((runPlugins id (fun _ => true) none [Ex.careless] 0 []).map List.length) = some 1 := by
  refine ⟨by decide +kernel, by decide +kernel, by decide +kernel⟩

end Limabean
