/-
C45: plugins tag what they make with their name, and leave alone what they pass on.
-/
import Verif.Proofs.PluginLemmas
import Verif.Props.C42

namespace Limabean

open Clj

namespace Spec

/-- The provenance of a directive, none being empty. -/
def Provenance (d : Data) (l : List Data) : Prop :=
  d.get (str% "provenance") = .vec l ∨ (d.get (str% "provenance") = .nil ∧ l = [])

/-- The plugin made this object at some time. -/
def Made (p : Plugin) (d : Data) : Prop := ∃ l, .new d ∈ p.step l ∨ .new d ∈ p.finish l

/-- The object `d` made by a plugin of name `name`, as marked: the name is added at the end of its provenance, after the marker of the phase;
all else is the same. -/
def Marks (name : Str) (phase : Option Str) (d r : Data) : Prop :=
  (∀ l, Provenance d l → Provenance r (l ++ (phase.map Data.kw).toList ++ [.str name])) ∧
    ∀ k, k ≠ str% "provenance" → r.get k = d.get k

/-- A directive after plugins have run: it was there before, or it carries an error, or it was made by one of the plugins and is marked
as such. -/
def Accounted (phase : Option Str) (ps : List Plugin) (before : List Data) (r : Data) : Prop :=
  r ∈ before ∨ isErr r = true ∨ ∃ p ∈ ps, ∃ d, Made p d ∧ IsMap d ∧ isErr d = false ∧ Marks p.name phase d r

/-- What plugins make are maps, with a vector or nothing as provenance; they pass on only what they have received,
and do not throw. -/
def Proper (p : Plugin) : Prop :=
  (∀ d, Made p d → IsMap d ∧ ∃ l, Provenance d l) ∧ (∀ l i, .old i ∈ p.step l ∨ .old i ∈ p.finish l → i < l.length) ∧
    ∀ l m, ¬ (.throws m ∈ p.step l ∨ .throws m ∈ p.finish l)

end Spec

open Spec

theorem provenanceTag_spec {name : Str} {phase : Option Str} {d : Data} {l : List Data} (hm : IsMap d) (hl : Provenance d l) :
    provenanceTag name phase d = some (d.assoc (str% "provenance") (.vec (l ++ (phase.map Data.kw).toList ++ [.str name]))) := by
  have he : (d.get (str% "provenance")).or (.vec []) = .vec l := by
    rcases hl with h | ⟨h, rfl⟩ <;> rw [h] <;> rfl
  cases phase <;> simp [provenanceTag, he, containsKw, conj]

theorem provenanceTag_marks {name : Str} {phase : Option Str} {d r : Data} (hm : IsMap d) (h : provenanceTag name phase d = some r) :
    Marks name phase d r := by
  constructor
  · intro l hl
    rw [provenanceTag_spec hm hl] at h
    cases h
    refine .inl ?_
    rw [get_assoc hm, if_pos rfl]
  · intro k hk
    obtain ⟨v, rfl⟩ : ∃ v, r = d.assoc (str% "provenance") v := by
      unfold provenanceTag at h
      simp only [Option.bind_eq_bind] at h
      cases phase with
      | none =>
        simp only [Option.bind_eq_some_iff] at h
        obtain ⟨_, -, v, -, h⟩ := h
        exact ⟨v, (Option.some.inj h).symm⟩
      | some k =>
        simp only at h
        split at h <;> (simp only [Option.bind_eq_some_iff] at h; obtain ⟨_, -, v, -, h⟩ := h; exact ⟨v, (Option.some.inj h).symm⟩)
    rw [get_assoc hm, if_neg hk]

theorem mem_json_all {α β : Type} {f : α → Option β} {l : List α} {l' : List β} (h : Json.all f l = some l') {y : β} (hy : y ∈ l') :
    ∃ x ∈ l, f x = some y := by
  induction l generalizing l' with
  | nil => cases h; cases hy
  | cons x l ih =>
    simp only [Json.all] at h
    split at h
    · rename_i a as h1 h2
      cases h
      rcases List.mem_cons.1 hy with rfl | hy
      · exact ⟨x, by simp, h1⟩
      · obtain ⟨z, hz, e⟩ := ih h2 hy
        exact ⟨z, by simp [hz], e⟩
    · cases h

theorem steps_mem {p : Plugin} {tag : Data → Option Data} {got l a : List Data} (h : steps p tag got l = some a) {r : Data} (hr : r ∈ a) :
    ∃ l', (∀ d ∈ l', d ∈ got ++ l) ∧ ∃ x ∈ p.step l', passOn tag l' x = some r := by
  induction l generalizing got a with
  | nil => cases h; cases hr
  | cons d l ih =>
    simp only [steps, Option.bind_eq_bind, Option.bind_eq_some_iff] at h
    obtain ⟨a1, h1, a2, h2, h3⟩ := h
    cases h3
    rcases List.mem_append.1 hr with hr | hr
    · obtain ⟨x, hx, e⟩ := mem_json_all h1 hr
      refine ⟨_, fun y hy => ?_, x, hx, e⟩
      rcases List.mem_append.1 hy with hy | hy
      · exact List.mem_append_left _ hy
      · rw [List.mem_singleton] at hy
        subst hy
        simp
    · obtain ⟨l', h4, h5⟩ := ih h2 hr
      exact ⟨l', fun y hy => by simpa using h4 y hy, h5⟩

theorem through_mem {p : Plugin} {tag : Data → Option Data} {l a : List Data} (h : through p tag l = some a) {r : Data} (hr : r ∈ a) :
    ∃ l', (∀ d ∈ l', d ∈ l) ∧ ∃ x, (x ∈ p.step l' ∨ x ∈ p.finish l') ∧ passOn tag l' x = some r := by
  simp only [through, Option.bind_eq_bind, Option.bind_eq_some_iff] at h
  obtain ⟨a1, h1, a2, h2, h3⟩ := h
  cases h3
  rcases List.mem_append.1 hr with hr | hr
  · obtain ⟨l', h4, x, hx, e⟩ := steps_mem h1 hr
    exact ⟨l', h4, x, .inl hx, e⟩
  · obtain ⟨x, hx, e⟩ := mem_json_all h2 hr
    exact ⟨l, fun _ h => h, x, .inr hx, e⟩

theorem throughAll_accounted {phase : Option Str} {ps : List Plugin} (hp : ∀ p ∈ ps, ∀ d, Made p d → IsMap d) {l a : List Data}
    (h : throughAll phase ps l = some a) {r : Data} (hr : r ∈ a) : Accounted phase ps l r := by
  induction ps generalizing l with
  | nil => cases h; exact .inl hr
  | cons p ps ih =>
    simp only [throughAll, Option.bind_eq_some_iff] at h
    obtain ⟨b, h1, h2⟩ := h
    rcases ih (fun q hq => hp q (by simp [hq])) h2 with hm | he | ⟨q, hq, h3⟩
    · obtain ⟨l', h4, x, hx, e⟩ := through_mem h1 hm
      cases x with
      | old i => exact .inl (h4 r (List.mem_of_getElem? e))
      | throws m => cases e
      | new d =>
        have hmade : Made p d := ⟨l', hx⟩
        simp only [passOn] at e
        split at e
        · rename_i he
          cases e
          exact .inr (.inl he)
        · rename_i he
          have hd := hp p (by simp) d hmade
          exact .inr (.inr ⟨p, by simp, d, hmade, hd, by simpa using he, provenanceTag_marks hd e⟩)
    · exact .inr (.inl he)
    · exact .inr (.inr ⟨q, by simp [hq], h3⟩)

/-- **C45.** Running plugins object by object, telling objects which plugins have made from those they have received by their hash
codes, has the same result as letting the plugins work on the whole list one after the other, where what a plugin makes is marked
with its name and what it passes on is not. -/
theorem C45_run {hash : Nat → Nat} (hinj : Function.Injective hash) {valid : Data → Bool} {phase : Option Str} {ps : List Plugin} {next : Nat}
    {ds out : List Obj} (hd : ∀ o ∈ ds, o.tok < next) (h : runPlugins hash valid phase ps next ds = some out) :
    throughAll phase ps (ds.map Obj.data) = some (out.map Obj.data) :=
  runPlugins_eq hinj hd h

/-- **C45**, every directive: after running plugins, each directive is one of those before, unchanged, or carries an error, or was
made by one of the plugins and is marked with the name of that plugin at the end of its provenance. -/
theorem C45_accounted {hash : Nat → Nat} (hinj : Function.Injective hash) {valid : Data → Bool} {phase : Option Str} {ps : List Plugin}
    (hp : ∀ p ∈ ps, ∀ d, Made p d → IsMap d) {next : Nat} {ds out : List Obj} (hd : ∀ o ∈ ds, o.tok < next)
    (h : runPlugins hash valid phase ps next ds = some out) : ∀ o ∈ out, Accounted phase ps (ds.map Obj.data) o.data := fun _ ho =>
  throughAll_accounted hp (runPlugins_eq hinj hd h) (List.mem_map_of_mem ho)

/-- **C45**, no exceptions: proper plugins run to the end, provided their directives satisfy the specification. -/
theorem C45_total {hash : Nat → Nat} (hinj : Function.Injective hash) {valid : Data → Bool} (hv : ∀ d, valid d = true) {phase : Option Str}
    {ps : List Plugin} (hp : ∀ p ∈ ps, Proper p) {next : Nat} {ds : List Obj} (hd : ∀ o ∈ ds, o.tok < next) :
    ∃ out, runPlugins hash valid phase ps next ds = some out := by
  refine runPlugins_total hinj hv (fun p hm l x hx => ?_) hd
  cases x with
  | old i =>
    have := (hp p hm).2.1 l i hx
    simp [passOn, this]
  | throws m => exact absurd hx ((hp p hm).2.2 l m)
  | new d =>
    obtain ⟨h1, l', h2⟩ := (hp p hm).1 d ⟨l, hx⟩
    simp only [passOn]
    split
    · simp
    · rw [provenanceTag_spec h1 h2]
      simp

theorem steps_passing {p : Plugin} {tag : Data → Option Data} (h1 : ∀ l, p.step l = [.old (l.length - 1)]) (got l : List Data) :
    steps p tag got l = some l := by
  induction l generalizing got with
  | nil => rfl
  | cons d l ih =>
    simp only [steps, Option.bind_eq_bind, h1, ih, Option.bind_some]
    simp [Json.all, passOn]

/-- **C45**, passing on: plugins which pass on what they receive change nothing. -/
theorem C45_unchanged {hash : Nat → Nat} (hinj : Function.Injective hash) {valid : Data → Bool} {phase : Option Str} {ps : List Plugin}
    (h1 : ∀ p ∈ ps, ∀ l, p.step l = [.old (l.length - 1)]) (h2 : ∀ p ∈ ps, ∀ l, p.finish l = []) {next : Nat} {ds out : List Obj}
    (hd : ∀ o ∈ ds, o.tok < next) (h : runPlugins hash valid phase ps next ds = some out) : out.map Obj.data = ds.map Obj.data := by
  replace h := runPlugins_eq hinj hd h
  generalize ds.map Obj.data = l at h
  clear hd ds
  induction ps with
  | nil => simpa [throughAll, eq_comm] using h
  | cons p ps ih =>
    simp only [throughAll, through, Option.bind_eq_bind, steps_passing (h1 p (by simp)), h2 p (by simp), Json.all, Option.bind_some,
      Option.pure_def, List.append_nil] at h
    exact ih (fun q hq => h1 q (by simp [hq])) (fun q hq => h2 q (by simp [hq])) h

/-- **C45**, the marker of the phase, as far as it is true: it occurs exactly once in what a plugin has marked, if the plugin made an
object without it. Missing: plugins which replace what earlier plugins have marked, see `C45_false`. -/
theorem C45_marker_partial {name k : Str} {d r : Data} {l : List Data} (h : Marks name (some k) d r) (hl : Provenance d l)
    (hn : Data.kw k ∉ l) : ∃ l', Provenance r l' ∧ ∃ a b, l' = a ++ .kw k :: b ∧ Data.kw k ∉ a ∧ Data.kw k ∉ b :=
  ⟨_, h.1 l hl, l, [.str name], by simp, hn, by simp⟩

namespace Ex

/-- A plugin which replaces each directive it receives by one with a flag, and adds a directive at the end. -/
def flagging (name : Str) : Plugin where
  name := name
  step l := match l.getLast? with
    | some d => [.new (d.assoc (str% "flag") (.str (str% "!")))]
    | none => []
  finish l := [.old (l.length - 1), .new (.map [(str% "err", .bool true)])]

/-- A directive. -/
def aNote : Data := .map [(str% "dct", .kw (str% "note")), (str% "comment", .str (str% "x"))]

/-- The note after two plugins. -/
def twice : Data :=
  .map [(str% "dct", .kw (str% "note")), (str% "comment", .str (str% "x")), (str% "flag", .str (str% "!")),
    (str% "provenance", .vec [.kw (str% "booked"), .str (str% "a"), .kw (str% "booked"), .str (str% "b")])]

end Ex

/-- **C45 is false** as to the marker of the phase: a directive which two plugins have replaced carries it twice, since `contains?`
does not look for elements of a vector. -/
theorem C45_false : (runPlugins id (fun _ => true) (some (str% "booked")) [Ex.flagging (str% "a"), Ex.flagging (str% "b")] 1
      [{ tok := 0, data := Ex.aNote }]).map (fun out => (out.map Obj.data).head?) = some (some Ex.twice) := by
  rfl

/-- **C45** needs hash codes which differ: if a new object has the hash code of one known, it is not marked. -/
theorem C45_needs_identity : (runPlugins (fun _ => 7) (fun _ => true) none [Ex.flagging (str% "a")] 1
      [{ tok := 0, data := Ex.aNote }]).map (fun out => out.map fun o => o.data.get (str% "provenance")) =
    some [.nil, .nil, .nil] := by
  rfl

/-- Non-vacuity: a run with different hash codes; what the plugin made is marked, what it passed on is not, nor is the error. -/
example : (runPlugins id (fun _ => true) none [Ex.flagging (str% "a")] 1
      [{ tok := 0, data := Ex.aNote }]).map (fun out => out.map fun o => o.data.get (str% "provenance")) =
    some [.vec [.str (str% "a")], .nil, .nil] := by
  rfl

example : Function.Injective (id : Nat → Nat) := fun _ _ h => h

end Limabean
