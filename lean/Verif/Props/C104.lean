/-
C104: when a plugin throws an exception, the user learns which plugin, why, and at which directive.

This is false: they learn neither (`C104_false`). The deprecated `error!` throws an exception which has all of this, but only `:message` of the
exception is printed, which is `nil` for an object that is not a map. The message also says that the plugins are ignored, but nothing is
loaded. What holds (`C104_raw_partial`, `C104_booked_partial`): if a plugin throws, whenever it does so and whatever the other plugins do,
then loading stops there, and the user reads that a plugin of this phase has thrown an exception.
-/
import Verif.Props.C99

namespace Limabean

open Spec Clj

variable {E : Ext} {L : BookLib}

namespace Spec

/-- The plugin throws an exception while it works on these directives: at one of them, or at the end. -/
def Throws (q : Plugin) (l : List Data) : Prop :=
  (∃ a d b message, l = a ++ d :: b ∧ .throws message ∈ q.step (a ++ [d])) ∨ ∃ message, .throws message ∈ q.finish l

/-- The plugins work on these directives up to one of them, which throws an exception unless there was one before. -/
def OneThrows (valid : Data → Bool) (phase : Option Str) (ps : List Plugin) (l : List Data) : Prop :=
  ∃ a q b, ps = a ++ q :: b ∧ ∀ l', throughVetted valid phase a l = some l' → Throws q l'

end Spec

namespace Clj

theorem all_throws {tag : Data → Option Data} {got : List Data} {message : Str} {os : List Out} (h : .throws message ∈ os) :
    Json.all (passOn tag got) os = none := by
  induction os with
  | nil => cases h
  | cons o os ih =>
    rcases List.mem_cons.1 h with rfl | h
    · rfl
    · simp only [Json.all, ih h]
      split <;> simp_all

theorem steps_throws {q : Plugin} {tag : Data → Option Data} {message : Str} (a : List Data) {d : Data} {b got : List Data}
    (h : .throws message ∈ q.step (got ++ a ++ [d])) : steps q tag got (a ++ d :: b) = none := by
  induction a generalizing got with
  | nil =>
    rw [List.append_nil] at h
    simp only [List.nil_append, steps, all_throws h, Option.bind_eq_bind, Option.bind_none]
  | cons x a ih =>
    have h' := ih (got := got ++ [x]) (by simpa using h)
    simp only [List.cons_append, steps, h', Option.bind_eq_bind, Option.bind_none, Option.bind_fun_none]

theorem through_throws {q : Plugin} {tag : Data → Option Data} {l : List Data} (h : Throws q l) : through q tag l = none := by
  unfold through
  rcases h with ⟨a, d, b, message, rfl, h⟩ | ⟨message, h⟩
  · rw [steps_throws a (by simpa using h)]
    rfl
  · simp only [all_throws h, Option.bind_eq_bind, Option.bind_none, Option.bind_fun_none]

theorem throughVetted_throws {valid : Data → Bool} {phase : Option Str} {ps : List Plugin} {l : List Data} (h : OneThrows valid phase ps l) :
    throughVetted valid phase ps l = none := by
  obtain ⟨a, q, b, rfl, h⟩ := h
  induction a generalizing l with
  | nil =>
    rw [List.nil_append, throughVetted, through_throws (h l rfl)]
    rfl
  | cons p a ih =>
    rw [List.cons_append, throughVetted]
    cases hp : through p (provenanceTag p.name phase) l with
    | none => rfl
    | some l1 =>
      rw [Option.bind_some]
      cases hv : vetted valid l1 with
      | none => rfl
      | some l2 =>
        rw [Option.bind_some]
        refine ih fun l' hl' => h l' ?_
        rw [throughVetted, hp, Option.bind_some, hv, Option.bind_some, hl']

theorem print_exception (F : Front E L) (ho : IsMapOrder F.ordm) {p : Parsed} {pod : Pod E} (h : Serving p pod) (raw : Bool) :
    (printErrors F pod (some (.pluginException raw))).2 = ([exceptionMessage raw, [], str% "nil"], true) := by
  obtain ⟨n, k, src, hn, rfl⟩ := h
  simp only [printErrors, printError, Pod.formatErrors]
  rw [invoke_ready F ho (by omega) (x := .formatErrors []) (by rw [decMethod_formatErrors]; rfl) rfl]
  dsimp only
  rw [answer_result (p := .report []) rfl (decode_str _ _)]
  rfl

end Clj

/-- C104 without what the user wants to know: if one of the raw plugins throws an exception, at any directive or at the end, then loading stops
there: nothing is booked. The user reads that an exception was thrown by a raw plugin, an empty line and `nil`. Missing: which plugin,
why, and where, see `C104_false`. -/
theorem C104_raw_partial (F : Front E L) (hinj : Function.Injective F.hash) (ho : IsMapOrder F.ordm) (hs : IsOrder F.ord) (src : E.Sources) {p : Parsed}
    (hp : OptionsOk p.options) (hd : ∀ d ∈ p.directives, DatesOk d) (hr : ∀ o, ∀ q ∈ p.plugins, (F.resolve (ofPlugin q) o).2.2 = none)
    (h : ∀ o, OneThrows (F.valid true) none (rawPlugins F p o) (p.directives.map fun d => ofDirective F.ord (withoutLostMeta d))) :
    ∃ m, loadBeanfile F (.ready src (.ok p)) = .ok m ∧ m.error = some (.pluginException true) ∧ m.bookedDirectives = none ∧ m.directives = none ∧
      (printErrors F m.pod m.error).2 = ([str% "Exception thrown by raw plugin, all raw plugins ignored", [], str% "nil"], true) := by
  obtain ⟨o, -, hm⟩ := raw_outcome F hinj ho hs src hp hd hr
  have hne : rawPlugins F p o ≠ [] := by
    obtain ⟨a, q, b, e, -⟩ := h o
    rw [e]
    simp
  have hres : rawResult F p o = none := by
    unfold rawResult
    cases hv : vetted (F.valid true) (p.directives.map fun d => ofDirective F.ord (withoutLostMeta d)) with
    | none => rfl
    | some l =>
      have : l = p.directives.map fun d => ofDirective F.ord (withoutLostMeta d) := by
        unfold vetted at hv
        split at hv
        · exact (Option.some.inj hv).symm
        · cases hv
      rw [Option.bind_some, this]
      exact throughVetted_throws (h o)
  have hm := hm hne
  rw [hres] at hm
  obtain ⟨m, h1, h2, -, h4, h5, h6⟩ := hm
  refine ⟨m, h1, h2, h4, h5, ?_⟩
  rw [h2, print_exception F ho h6]
  rfl

/-- C104 for booked plugins, likewise: nothing is loaded although booking has succeeded. -/
theorem C104_booked_partial (F : Front E L) (hinj : Function.Injective F.hash) (ho : IsMapOrder F.ordm) (hs : IsOrder F.ord) (hL : DatesExist L)
    (src : E.Sources) {p : Parsed} (hp : OptionsOk p.options) (hd : ∀ d ∈ p.directives, DatesOk d)
    (hr : ∀ o, ∀ q ∈ p.plugins, (F.resolve (ofPlugin q) o).2.2 = none) {m : LoadedBeans E} (hm : loadBeanfile F (.ready src (.ok p)) = .ok m)
    {bs : List Data} (hb : m.bookedDirectives = some bs) (h : OneThrows (F.valid false) (some (str% "booked")) (bookedPlugins F p m.options) bs) :
    m.error = some (.pluginException false) ∧ m.directives = none ∧
      (printErrors F m.pod m.error).2 = ([str% "Exception thrown by booked plugin, all booked plugins ignored", [], str% "nil"], true) := by
  have hne : bookedPlugins F p m.options ≠ [] := by
    obtain ⟨a, q, b, e, -⟩ := h
    rw [e]
    simp
  have hm := booked_outcome F hinj ho hs hL src hp hd hr hm hb hne
  have hres : bookedResult F p m.options bs = none := by
    unfold bookedResult
    cases hv : vetted (F.valid false) bs with
    | none => rfl
    | some l =>
      have : l = bs := by
        unfold vetted at hv
        split at hv
        · exact (Option.some.inj hv).symm
        · cases hv
      rw [Option.bind_some, this]
      exact throughVetted_throws h
  rw [hres] at hm
  obtain ⟨h2, h5, h6⟩ := hm
  refine ⟨h2, h5, ?_⟩
  rw [h2, print_exception F ho h6]
  rfl

/-- The plugin with `error!` throws when it matches some directive. -/
theorem C104_throws {hit : Data → Bool} {l : List Data} (message : Str) {d : Data} (hd : d ∈ l) (h : hit d = true) : Throws (throwPlugin hit message) l := by
  obtain ⟨a, b, rfl⟩ := List.append_of_mem hd
  exact .inl ⟨a, d, b, message, rfl, by simp [throwPlugin, h]⟩

namespace Ex

/-- What is printed after loading, and whether something was loaded. -/
def printedAfter (F : Front Toy.ext Toy.lib) (s : Server Toy.ext) : Option (List Str × Bool) := match loadBeanfile F s with
  | .ok m => some ((printErrors F m.pod m.error).2.1, m.directives.isSome)
  | .error _ => none

/-- The directive is of this kind. -/
def ofKind (k : Str) (d : Data) : Bool := isKw (d.get (str% "dct")) k

end Ex

/-- C104 is false: two plugins throw for different reasons at different directives, but what is printed is the same, and has neither
message. It says that plugins are ignored, but nothing is loaded; without the plugins there is something. -/
theorem C104_false :
    Ex.printedAfter (Ex.pluginFront (throwPlugin (Ex.ofKind (str% "txn")) (str% "no lunch"))) (Ex.withPlugin Ex.openedLunch) =
      some ([str% "Exception thrown by raw plugin, all raw plugins ignored", [], str% "nil"], false) ∧
    Ex.printedAfter (Ex.pluginFront (throwPlugin (Ex.ofKind (str% "open")) (str% "closed shop"))) (Ex.withPlugin Ex.openedLunch) =
      some ([str% "Exception thrown by raw plugin, all raw plugins ignored", [], str% "nil"], false) ∧
    Ex.printedAfter (Ex.bookedFront (throwPlugin (Ex.ofKind (str% "open")) (str% "closed shop"))) (Ex.withPlugin Ex.openedLunch) =
      some ([str% "Exception thrown by booked plugin, all booked plugins ignored", [], str% "nil"], false) ∧
    Ex.printedAfter Ex.strictFront (.ready [] (.ok { directives := Ex.openedLunch, options := Toy.options, plugins := [] })) = some ([], true) := by
  refine ⟨?_, ?_, ?_, ?_⟩ <;> decide +kernel

/-- Non-vacuity of `C104_raw_partial`: the second of two plugins throws at a transaction to which the first has given a narration, and the
conclusion says the same as running it. If it does not find one then it does not throw. -/
example :
    let F (n : Str) : Front Toy.ext Toy.lib :=
      { Ex.strictFront with resolve := fun q _ => (some (if Ex.textOf (q.get (str% "name")) == (str% "first") then narrationPlugin (str% "Lunch")
          else throwPlugin (fun d => Ex.textOf (d.get (str% "narration")) == n) (str% "no such thing")), none, none) }
    Ex.printedAfter (F (str% "Lunch")) Ex.pairServer =
      some ([str% "Exception thrown by raw plugin, all raw plugins ignored", [], str% "nil"], false) ∧
    Ex.printedAfter (F (str% "Dinner")) Ex.pairServer = some ([], true) := by
  refine ⟨?_, ?_⟩ <;> decide +kernel

/-- Non-vacuity of the hypotheses of `C104_raw_partial`. -/
example (message : Str) (o : Data) : OneThrows (Ex.strictFront.valid true) none
    (rawPlugins (Ex.pluginFront (throwPlugin (Ex.ofKind (str% "txn")) message))
      { directives := Ex.openedLunch, options := Toy.options, plugins := [(str% "passing", none)] } o)
    (Ex.openedLunch.map fun d => ofDirective Ex.strictFront.ord (withoutLostMeta d)) := by
  refine ⟨[], _, [], rfl, fun l hl => ?_⟩
  cases hl
  obtain ⟨d, hd, h⟩ : ∃ d ∈ Ex.openedLunch.map fun d => ofDirective Ex.strictFront.ord (withoutLostMeta d), Ex.ofKind (str% "txn") d = true :=
    List.any_eq_true.1 (by decide +kernel)
  obtain ⟨a, b, e⟩ := List.append_of_mem hd
  rw [e]
  exact .inl ⟨a, d, b, message, rfl, by simp [throwPlugin, h]⟩

end Limabean
