/-
C67: every plugin line of the beanfile is used, with all of its configuration, or reported.

False: what follows the first value in the configuration is ignored, and a plugin whose function returns `nil` is neither used nor
reported (`C67_false`). Everything else holds: `C67_used_partial` says exactly when a line is used, and how; `C67_reported` why it is reported;
`C67_loaded_partial` and `C67_refused` what this means for loading.
-/
import Verif.Clj.Resolution
import Verif.Props.C65
import Verif.Props.C66

namespace Limabean

open Spec Clj

variable {E : Ext} {L : BookLib}

namespace Spec

/-- The name of the namespace for a plugin: underscores become hyphens. -/
def NamespaceOf (name ns : Str) : Prop := List.Forall₂ (fun a b => b = if a = '_' then '-' else a) name ns

/-- The first value in the configuration; `nil` if there is none. -/
def ConfigReads (N : Library) : Option Str → Data → Prop
  | none, c => c = .nil
  | some s, c => ∃ rest, N.read s = .ok (c, rest)

/-- The function, if there is one, makes this plugin; without there is none. -/
def Makes : Option PluginFn → Data → Data → Option Plugin → Prop
  | none, _, _, r => r = none
  | some f, c, o, r => f c o = .ok r

/-- A plugin line is usable: its namespace is there, with at least one of the two functions, its configuration can be read, and what
the functions make of it and the options is `raw` and `booked`. -/
def Usable (N : Library) (options : Data) (q : Str × Option Str) (raw booked : Option Plugin) : Prop :=
  ∃ name ns c, NamespaceOf q.1 name ∧ N.find name = some ns ∧ (ns.raw ≠ none ∨ ns.booked ≠ none) ∧ ConfigReads N q.2 c ∧
    Makes ns.raw c options raw ∧ Makes ns.booked c options booked

/-- Why a plugin line cannot be used. -/
inductive Unusable (N : Library) (options : Data) (q : Str × Option Str) : Str → Prop
  | noNamespace {name : Str} : NamespaceOf q.1 name → N.find name = none → Unusable N options q (str% "could not load namespace for plugin")
  | noFunction {name : Str} {ns : Namespace} : NamespaceOf q.1 name → N.find name = some ns → ns.raw = none → ns.booked = none →
    Unusable N options q (str% "Failed to find either booked-xf or raw-xf in plugin")
  | badConfig {name : Str} {ns : Namespace} {s e : Str} : NamespaceOf q.1 name → N.find name = some ns →
    (ns.raw ≠ none ∨ ns.booked ≠ none) → q.2 = some s → N.read s = .error e → Unusable N options q (str% "Error resolving config: " ++ e)
  | throws {name : Str} {ns : Namespace} {c : Data} {f : PluginFn} {e : Str} : NamespaceOf q.1 name → N.find name = some ns →
    ConfigReads N q.2 c → (ns.raw = some f ∨ ns.booked = some f) → f c options = .error e →
    Unusable N options q (str% "Error resolving config: " ++ e)

/-- A line of output for each plugin line which cannot be used, and no other. -/
inductive PluginLines (N : Library) (options : Data) : List (Str × Option Str) → List Str → Prop
  | nil : PluginLines N options [] []
  | used {q raw booked l ls} : Usable N options q raw booked → PluginLines N options l ls → PluginLines N options (q :: l) ls
  | reported {q e l ls} : Unusable N options q e → PluginLines N options l ls →
    PluginLines N options (q :: l) ((str% "ERROR in plugin " ++ q.1 ++ str% " - " ++ e) :: ls)

end Spec

theorem namespaceOf_iff {name ns : Str} : NamespaceOf name ns ↔ ns = name.map fun c => if c = '_' then '-' else c := by
  unfold NamespaceOf
  induction name generalizing ns with
  | nil => simp
  | cons a name ih =>
    constructor
    · rintro (_ | ⟨h, h'⟩)
      rw [List.map_cons, ← ih.1 h', h]
    · rintro rfl
      exact .cons rfl (ih.2 rfl)

theorem configReads_iff {N : Library} {q : Str × Option Str} {c : Data} :
    ConfigReads N q.2 c ↔ N.readString ((ofPlugin q).get (str% "config")) = .ok c := by
  obtain ⟨n, s⟩ := q
  cases s with
  | none => exact ⟨fun h => by cases h; rfl, fun h => by cases h; rfl⟩
  | some s =>
    show (∃ rest, N.read s = .ok (c, rest)) ↔ (N.read s).map Prod.fst = .ok c
    cases h : N.read s with
    | error e => simp [Except.map]
    | ok r =>
      obtain ⟨a, b⟩ := r
      simp [Except.map]

theorem makes_iff {f : Option PluginFn} {c o : Data} {r : Option Plugin} : Makes f c o r ↔ callXf f c o = .ok r := by
  cases f with
  | none => exact ⟨fun h => by cases h; rfl, fun h => by cases h; rfl⟩
  | some f => exact Iff.rfl

/-- **C67**, when a line is used. Missing: `ConfigReads` is about the first value only, and `raw` and `booked` may both be absent. -/
theorem C67_used_partial (N : Library) (options : Data) (q : Str × Option Str) (raw booked : Option Plugin) :
    N.resolve (ofPlugin q) options = (raw, booked, none) ↔ Usable N options q raw booked := by
  unfold Usable
  simp only [namespaceOf_iff, configReads_iff, makes_iff]
  unfold Library.resolve Library.resolveXfs
  have hn : nameStr ((ofPlugin q).get (str% "name")) = q.1 := rfl
  rw [hn]
  constructor
  · intro h
    cases hf : N.find (q.1.map fun c => if c = '_' then '-' else c) with
    | none => simp [hf] at h
    | some ns =>
      simp only [hf] at h
      split at h
      · simp at h
      · rename_i ns' hns
        split at hns
        · rename_i hs
          cases hns
          cases hc : N.readString ((ofPlugin q).get (str% "config")) with
          | error e => simp [hc, bind, Except.bind] at h
          | ok c =>
            cases hb : callXf ns.booked c options with
            | error e => simp [hc, hb, bind, Except.bind] at h
            | ok b =>
              cases hr : callXf ns.raw c options with
              | error e => simp [hc, hb, hr, bind, Except.bind] at h
              | ok r =>
                simp [hc, hb, hr, bind, Except.bind, pure, Except.pure] at h
                refine ⟨_, ns, c, rfl, hf, ?_, rfl, ?_, ?_⟩
                · simpa [Option.isSome_iff_ne_none] using hs
                · rw [hr, h.1]
                · rw [hb, h.2]
        · cases hns
  · rintro ⟨_, ns, c, rfl, hf, hs, hc, hr, hb⟩
    have hs' : (ns.raw.isSome || ns.booked.isSome) = true := by simpa [Option.isSome_iff_ne_none] using hs
    simp [hf, hs', hc, hr, hb, bind, Except.bind, pure, Except.pure]

/-- **C67**, when a line is reported: nothing of it is used, and the message says why. -/
theorem C67_reported (N : Library) (options : Data) (q : Str × Option Str) {raw booked : Option Plugin} {e : Str}
    (h : N.resolve (ofPlugin q) options = (raw, booked, some e)) : raw = none ∧ booked = none ∧ Unusable N options q e := by
  unfold Library.resolve Library.resolveXfs at h
  have hn : nameStr ((ofPlugin q).get (str% "name")) = q.1 := rfl
  rw [hn] at h
  have hname := (namespaceOf_iff (name := q.1)).2 rfl
  cases hf : N.find (q.1.map fun c => if c = '_' then '-' else c) with
  | none =>
    simp [hf] at h
    obtain ⟨rfl, rfl, rfl⟩ := h
    exact ⟨rfl, rfl, .noNamespace hname hf⟩
  | some ns =>
    simp only [hf] at h
    split at h
    · rename_i e' he
      split at he
      · cases he
      · rename_i hs
        cases he
        simp at h
        obtain ⟨rfl, rfl, rfl⟩ := h
        simp at hs
        exact ⟨rfl, rfl, .noFunction hname hf hs.1 hs.2⟩
    · rename_i ns' hns
      split at hns
      · rename_i hs
        cases hns
        have hs' : ns.raw ≠ none ∨ ns.booked ≠ none := by simpa [Option.isSome_iff_ne_none] using hs
        cases hc : N.readString ((ofPlugin q).get (str% "config")) with
        | error e' =>
          simp [hc, bind, Except.bind] at h
          obtain ⟨rfl, rfl, rfl⟩ := h
          refine ⟨rfl, rfl, ?_⟩
          obtain ⟨n, s⟩ := q
          cases s with
          | none => cases hc
          | some s =>
            refine .badConfig hname hf hs' rfl ?_
            change (N.read s).map Prod.fst = .error e' at hc
            cases hr : N.read s with
            | error e => rw [hr] at hc; cases hc; rfl
            | ok r => rw [hr] at hc; cases hc
        | ok c =>
          cases hb : callXf ns.booked c options with
          | error e' =>
            simp [hc, hb, bind, Except.bind] at h
            obtain ⟨rfl, rfl, rfl⟩ := h
            cases hbf : ns.booked with
            | none => rw [hbf] at hb; cases hb
            | some f =>
              rw [hbf] at hb
              exact ⟨rfl, rfl, .throws hname hf (configReads_iff.2 hc) (.inr hbf) hb⟩
          | ok b =>
            cases hr : callXf ns.raw c options with
            | error e' =>
              simp [hc, hb, hr, bind, Except.bind] at h
              obtain ⟨rfl, rfl, rfl⟩ := h
              cases hrf : ns.raw with
              | none => rw [hrf] at hr; cases hr
              | some f =>
                rw [hrf] at hr
                exact ⟨rfl, rfl, .throws hname hf (configReads_iff.2 hc) (.inl hrf) hr⟩
            | ok r => simp [hc, hb, hr, bind, Except.bind, pure, Except.pure] at h
      · cases hns

/-- No line is both. -/
theorem C67_either {N : Library} {options : Data} {q : Str × Option Str} {raw booked : Option Plugin} {e : Str}
    (h : Usable N options q raw booked) : ¬ Unusable N options q e := by
  obtain ⟨name, ns, c, hn, hf, hs, hc, hr, hb⟩ := h
  have hname : ∀ {name'}, NamespaceOf q.1 name' → name' = name := fun h => by rw [namespaceOf_iff.1 h, namespaceOf_iff.1 hn]
  have hconf : ∀ {c'}, ConfigReads N q.2 c' → c' = c := fun h => by
    have := configReads_iff.1 h
    rw [configReads_iff.1 hc] at this
    cases this
    rfl
  intro hu
  cases hu with
  | noNamespace hn' hf' => rw [hname hn', hf] at hf'; cases hf'
  | noFunction hn' hf' h1 h2 =>
    rw [hname hn', hf] at hf'
    cases hf'
    exact hs.elim (· h1) (· h2)
  | badConfig hn' hf' _ hq he =>
    rw [hq] at hc
    obtain ⟨_, hc⟩ := hc
    rw [he] at hc
    cases hc
  | throws hn' hf' hc' hx he =>
    rw [hname hn', hf] at hf'
    cases hf'
    rw [hconf hc'] at he
    rcases hx with hx | hx
    · rw [hx, Makes, he] at hr
      cases hr
    · rw [hx, Makes, he] at hb
      cases hb

/-- What the plugin lines of a beanfile which loads without an error have made, line by line, is what C66 is about. -/
theorem C67_loaded_partial (F : Front E L) (N : Library) (hN : F.resolve = N.resolve) (hinj : Function.Injective F.hash)
    (ho : IsMapOrder F.ordm) (hs : IsOrder F.ord) (hE : SpanStore E) (hL : DatesExist L) (src : E.Sources) {p : Parsed}
    (hp : OptionsOk p.options) (hd : ∀ d ∈ p.directives, DatesOk d) {m : LoadedBeans E}
    (h : loadBeanfile F (.ready src (.ok p)) = .ok m) (he : m.error = none) :
    ∃ rs : List (Option Plugin × Option Plugin), List.Forall₂ (fun q r => Usable N m.options q r.1 r.2) p.plugins rs ∧
      rawPlugins F p m.options = (p.plugins.zip rs).filterMap (fun x => x.2.1.map fun pl => { pl with name := x.1.1 }) ∧
      bookedPlugins F p m.options = (p.plugins.zip rs).filterMap (fun x => x.2.2.map fun pl => { pl with name := x.1.1 }) := by
  obtain ⟨_, _, _, _, _, _, _, _, hr, -⟩ := C66_ledger F hinj ho hs hE hL src hp hd h he
  unfold rawPlugins bookedPlugins
  rw [hN] at hr ⊢
  refine ⟨p.plugins.map fun q => ((N.resolve (ofPlugin q) m.options).1, (N.resolve (ofPlugin q) m.options).2.1), ?_, ?_, ?_⟩
  · rw [List.forall₂_map_right_iff]
    refine List.forall₂_same.2 fun q hq => (C67_used_partial ..).1 ?_
    rw [← hr q hq]
  · generalize p.plugins = l
    induction l with
    | nil => rfl
    | cons q l ih => rw [List.map_cons, List.zip_cons_cons, List.filterMap_cons, List.filterMap_cons, ih]
  · generalize p.plugins = l
    induction l with
    | nil => rfl
    | cons q l ih => rw [List.map_cons, List.zip_cons_cons, List.filterMap_cons, List.filterMap_cons, ih]

/-- If a plugin line cannot be used, nothing is loaded, and the user reads a line for each such plugin. -/
theorem C67_refused (F : Front E L) (N : Library) (hN : F.resolve = N.resolve) (ho : IsMapOrder F.ordm) (hs : IsOrder F.ord)
    (src : E.Sources) {p : Parsed} (hp : OptionsOk p.options)
    (hq : ∀ o, ∃ q ∈ p.plugins, ∀ raw booked, ¬ Usable N o q raw booked) :
    ∃ m lines, loadBeanfile F (.ready src (.ok p)) = .ok m ∧ m.error ≠ none ∧ m.directives = none ∧
      PluginLines N m.options p.plugins lines ∧ (printErrors F m.pod m.error).2 = (lines, true) := by
  have hq' : ∀ o, ∃ q ∈ p.plugins, (F.resolve (ofPlugin q) o).2.2 ≠ none := by
    intro o
    obtain ⟨q, h1, h2⟩ := hq o
    refine ⟨q, h1, fun h3 => h2 (N.resolve (ofPlugin q) o).1 (N.resolve (ofPlugin q) o).2.1 ((C67_used_partial ..).1 ?_)⟩
    rw [hN] at h3
    rw [← h3]
  obtain ⟨m, h1, h2, h3, h4⟩ := C65_plugins F ho hs src hp hq'
  refine ⟨m, _, h1, h2, h3, ?_, h4⟩
  rw [hN]
  generalize p.plugins = l
  induction l with
  | nil => exact .nil
  | cons q l ih =>
    rw [List.filterMap_cons]
    rcases hx : N.resolve (ofPlugin q) m.options with ⟨raw, booked, e⟩
    cases e with
    | none => exact .used ((C67_used_partial ..).1 hx) ih
    | some e => exact .reported (C67_reported N _ q hx).2.2 ih

namespace Ex

/-- A library with two plugins: `a-b`, which needs a number as configuration, and `none`, which returns `nil`. -/
def library : Library where
  find name :=
    if name = str% "a-b" then some
      { raw := some fun c _ => match c with | .num _ => .ok (some passing) | _ => .error (str% "not a number"), booked := none }
    else if name = str% "none" then some { raw := none, booked := some fun _ _ => .ok none }
    else none
  read s := match s with
    | '1' :: rest => .ok (.num ⟨1, 0⟩, rest)
    | _ => .error (str% "EOF while reading")

end Ex

/-- A front end with this library. -/
def Ex.libraryFront : Front Toy.ext Toy.lib := { Ex.front with resolve := Ex.library.resolve }

/-- A server with a beanfile with these plugin lines. -/
def Ex.withLines (l : List (Str × Option Str)) : Server Toy.ext := .ready [] (.ok { directives := Ex.patient, options := Toy.options, plugins := l })

/-- C67 is false: what follows the first value is ignored, here an unbalanced bracket; and a plugin whose function returns `nil` is
neither used nor reported. -/
theorem C67_false : Ex.library.resolve (ofPlugin (str% "a_b", some (str% "1 ]"))) .nil =
      Ex.library.resolve (ofPlugin (str% "a_b", some (str% "1"))) .nil ∧
    Ex.library.read (str% "1 ]") ≠ Ex.library.read (str% "1") ∧
    Ex.library.resolve (ofPlugin (str% "none", none)) .nil = (none, none, none) := by
  refine ⟨rfl, ?_, rfl⟩
  intro h
  simp [Ex.library] at h

/-- Non-vacuity: a line which is used, and lines which are not, each for another reason. -/
example : Ex.library.resolve (ofPlugin (str% "a_b", some (str% "1"))) .nil = (some Ex.passing, none, none) ∧
    Ex.library.resolve (ofPlugin (str% "a_b", none)) .nil = (none, none, some (str% "Error resolving config: not a number")) ∧
    Ex.library.resolve (ofPlugin (str% "a_b", some [])) .nil = (none, none, some (str% "Error resolving config: EOF while reading")) ∧
    Ex.library.resolve (ofPlugin (str% "b", none)) .nil = (none, none, some (str% "could not load namespace for plugin")) :=
  ⟨rfl, rfl, rfl, rfl⟩

/-- Non-vacuity of `C67_loaded_partial` and `C67_refused`; the other hypotheses are those of C66. -/
example : (Ex.loadedDates Ex.libraryFront (Ex.withLines [(str% "a_b", some (str% "1"))])).map List.length = some 2 ∧
    (∀ o raw booked, ¬ Usable Ex.library o (str% "b", none) raw booked) ∧
    (Ex.loadedDates Ex.libraryFront (Ex.withLines [(str% "a_b", some (str% "1")), (str% "b", none)])).isNone = true := by
  refine ⟨by decide +kernel, ?_, by decide +kernel⟩
  rintro o raw booked ⟨name, ns, c, hn, hf, -⟩
  rw [namespaceOf_iff.1 hn] at hf
  cases hf

end Limabean
