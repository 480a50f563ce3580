/-
C73. The user's files: those listed in `LIMABEAN_USER_CLJ` are loaded, in order, also if one of them or the beanfile is in error; for each
which fails the user reads its name and the reason; `*exception*` is the last exception. False for a variable which is empty, and for
exceptions without messages (`C73_false`).
-/
import Verif.Clj.UserCode
import Verif.Proofs.RollupLemmas
import Verif.Props.C64

namespace Limabean

open Clj Spec

variable {E : Ext} {L : BookLib} {U Input : Type}

namespace Spec

/-- Actions are done one after the other, each on what the one before left: what each was, and the exception it threw. -/
inductive InTurn {A S : Type} (act : A → S → S × Option Exc) : S → List (A × Option Exc) → S → Prop
  | done (s : S) : InTurn act s [] s
  | step {a : A} {s s' s'' : S} {e : Option Exc} {l : List (A × Option Exc)} (h : act a s = (s', e)) (rest : InTurn act s' l s'') :
    InTurn act s ((a, e) :: l) s''

/-- The last exception, or the given one if there is none. -/
def lastOf {A : Type} (e : Option Exc) (l : List (A × Option Exc)) : Option Exc := ((l.filterMap Prod.snd).getLast?).or e

/-- What the user reads about an exception: all the messages, of the exception and its causes, each on its line. -/
def Tells (e : Exc) (s : Str) : Prop := s = str% "Exception: " ++ (e.via.reduceOption.map fun m => m ++ ['\n']).flatten

/-- The texts about files: for each which failed a line with its name, and the exception. -/
inductive FileReports : List (Str × Option Exc) → List UserText → Prop
  | nil : FileReports [] []
  | loaded {f : Str} {l : List (Str × Option Exc)} {t : List UserText} (h : FileReports l t) : FileReports ((f, none) :: l) t
  | failed {f : Str} {e : Exc} {l : List (Str × Option Exc)} {t : List UserText} {s : Str} (hs : Tells e s) (h : FileReports l t) :
    FileReports ((f, some e) :: l) (.text (str% "Failed to load " ++ f ++ str% " from $LIMABEAN_USER_CLJ\n") :: .text s :: t)

/-- The list of files, separated by colons. -/
def listed (files : List Str) : Str := [':'].intercalate files

/-- The name of a file which can be listed. -/
def FileName (f : Str) : Prop := f ≠ [] ∧ ':' ∉ f

end Spec

namespace Clj

theorem tells_text (e : Exc) : Tells e (exceptionText e) := by
  unfold Tells exceptionText
  rw [List.flatMap_def]
  rfl

theorem lastOf_cons {A : Type} (e : Option Exc) (a : A) (x : Option Exc) (l : List (A × Option Exc)) :
    lastOf e ((a, x) :: l) = lastOf (x.or e) l := by
  unfold lastOf
  cases x with
  | none => rfl
  | some x =>
    rw [List.filterMap_cons_some (b := x) (by rfl)]
    cases h : l.filterMap Prod.snd with
    | nil => rfl
    | cons y l' =>
      rw [List.getLast?_cons_cons]
      cases h' : (y :: l').getLast? with
      | none => simp at h'
      | some z => rfl

theorem loads_files (W : UserHost E L U Input) (files : List Str) (r : Repl E U) :
    ∃ l t, l.map Prod.fst = files ∧ InTurn W.loadFile r.state l (files.foldl (Repl.loadClj W) r).state ∧ FileReports l t ∧
      (files.foldl (Repl.loadClj W) r).err = r.err ++ t ∧ (files.foldl (Repl.loadClj W) r).exception = lastOf r.exception l := by
  induction files generalizing r with
  | nil => exact ⟨[], [], rfl, .done _, .nil, (List.append_nil _).symm, rfl⟩
  | cons f files ih =>
    obtain ⟨l, t, h1, h2, h3, h4, h5⟩ := ih (r.loadClj W f)
    rw [List.foldl_cons]
    have hs : (r.loadClj W f).state = (W.loadFile f r.state).1 := by
      unfold Repl.loadClj
      dsimp only
      split <;> rfl
    rw [hs] at h2
    cases he : (W.loadFile f r.state).2 with
    | none =>
      have e : r.loadClj W f = { r with state := (W.loadFile f r.state).1 } := by
        unfold Repl.loadClj
        dsimp only
        rw [he]
      refine ⟨(f, none) :: l, t, by rw [List.map_cons, h1], .step (Prod.ext rfl he) h2, .loaded h3, ?_, ?_⟩
      · rw [h4, e]
      · rw [h5, lastOf_cons, e]
        rfl
    | some x =>
      have e : r.loadClj W f = Repl.handle { r with state := (W.loadFile f r.state).1, err := r.err ++ [.text (failedText f)] } x := by
        unfold Repl.loadClj
        dsimp only
        rw [he]
      refine ⟨(f, some x) :: l, _, by rw [List.map_cons, h1], .step (Prod.ext rfl he) h2, .failed (tells_text x) h3, ?_, ?_⟩
      · rw [h4, e]
        simp [Repl.handle, failedText]
      · rw [h5, lastOf_cons, e]
        rfl

theorem split_listed {files : List Str} (hf : ∀ f ∈ files, FileName f) (hn : files ≠ []) : splitColon (listed files) = files := by
  have hc : components (listed files) = files := components_join (fun f h => (hf f h).2) hn
  rw [splitColon_eq (fun c h => by rw [hc] at h; exact (hf c h).1), hc]

theorem inputs_run (W : UserHost E L U Input) (inputs : List Input) (r : Repl E U) :
    ∃ l, l.map Prod.fst = inputs ∧ InTurn W.eval r.state l (inputs.foldl (Repl.input W) r).state ∧
      (inputs.foldl (Repl.input W) r).exception = lastOf r.exception l ∧
      List.Forall₂ (fun e t => ∃ s, t = UserText.text s ∧ Tells e s) (l.filterMap Prod.snd) ((inputs.foldl (Repl.input W) r).err.drop r.err.length) ∧
      r.err <+: (inputs.foldl (Repl.input W) r).err := by
  induction inputs generalizing r with
  | nil => exact ⟨[], rfl, .done _, rfl, by simp, List.prefix_rfl⟩
  | cons i inputs ih =>
    obtain ⟨l, h1, h2, h3, h4, h5⟩ := ih (r.input W i)
    rw [List.foldl_cons]
    have hs : (r.input W i).state = (W.eval i r.state).1 := by
      unfold Repl.input
      dsimp only
      split <;> rfl
    rw [hs] at h2
    cases he : (W.eval i r.state).2 with
    | none =>
      have e : r.input W i = { r with state := (W.eval i r.state).1 } := by
        unfold Repl.input
        dsimp only
        rw [he]
      have e' : (r.input W i).err = r.err := by rw [e]
      refine ⟨(i, none) :: l, by rw [List.map_cons, h1], .step (Prod.ext rfl he) h2, ?_, ?_, ?_⟩
      · rw [h3, lastOf_cons, e]
        rfl
      · rw [e'] at h4
        exact h4
      · rw [e'] at h5
        exact h5
    | some x =>
      have e : r.input W i = Repl.handle { r with state := (W.eval i r.state).1 } x := by
        unfold Repl.input
        dsimp only
        rw [he]
      have e' : (r.input W i).err = r.err ++ [.text (exceptionText x)] := by rw [e]; rfl
      refine ⟨(i, some x) :: l, by rw [List.map_cons, h1], .step (Prod.ext rfl he) h2, ?_, ?_, ?_⟩
      · rw [h3, lastOf_cons, e]
        rfl
      · rw [e'] at h4 h5
        obtain ⟨t, ht⟩ := h5
        rw [← ht] at h4 ⊢
        rw [List.drop_left] at h4
        rw [List.append_assoc, List.drop_left]
        exact .cons ⟨_, rfl, tells_text x⟩ h4
      · exact (List.prefix_append _ _).trans (e' ▸ h5)

end Clj

/-- **C73**, for the files: the beanfile has been loaded, with or without an error; then each listed file is loaded, in order, on what
the one before left, whatever exceptions were thrown; for each which failed its name and the messages follow on the lines about the
beanfile, in order; and `*exception*` is the last exception. Missing from the full statement: the empty list, see `C73_false`; and what
the user reads about exceptions without messages. -/
theorem C73_files_partial (W : UserHost E L U Input) (path : Str) (u : U) (files : List Str) (hf : ∀ f ∈ files, FileName f) (hn : files ≠ [])
    (hw : W.userClj = some (listed files)) {g : Globals E} {lines : List LoadLine}
    (hl : userLoad W.front {} path (W.server path) = (g, lines, true)) :
    ∃ l t, l.map Prod.fst = files ∧ InTurn W.loadFile (g, u) l (session W path u []).state ∧ FileReports l t ∧
      (session W path u []).err = lines.map UserText.load ++ t ∧ (session W path u []).exception = lastOf none l := by
  obtain ⟨l, t, h⟩ := loads_files W files { state := (g, u), err := lines.map UserText.load }
  refine ⟨l, t, ?_⟩
  have e : session W path u [] = files.foldl (Repl.loadClj W) { state := (g, u), err := lines.map UserText.load } := by
    unfold session Repl.init
    rw [hl]
    simp only [if_true, List.foldl_nil, Repl.loadUserCljs, hw, split_listed hf hn]
  rw [e]
  exact h

/-- C73: without the variable no file is loaded; and if the beanfile could not be loaded at all, none either, and `*exception*` says why. -/
theorem C73_none (W : UserHost E L U Input) (path : Str) (u : U) {g : Globals E} {lines : List LoadLine} {ok : Bool}
    (hl : userLoad W.front {} path (W.server path) = (g, lines, ok)) :
    (W.userClj = none → ok = true → session W path u [] = { state := (g, u), err := lines.map UserText.load }) ∧
    (ok = false → ∃ s, Tells W.loadExc s ∧
      session W path u [] = { state := (g, u), exception := some W.loadExc, err := lines.map UserText.load ++ [.text s] }) := by
  unfold session Repl.init
  rw [hl]
  refine ⟨fun h1 h2 => ?_, fun h => ⟨_, tells_text _, ?_⟩⟩
  · subst h2
    simp only [if_true, List.foldl_nil, Repl.loadUserCljs, h1]
  · subst h
    rfl

/-- C73, for the inputs of a session: each is evaluated on what the one before left, whatever exceptions were thrown; `*exception*` is the
last exception, of an input or of what came before; and for each exception, in order, the messages are added to what was written. -/
theorem C73_inputs (W : UserHost E L U Input) (path : Str) (u : U) (inputs : List Input) :
    ∃ l, l.map Prod.fst = inputs ∧ InTurn W.eval (session W path u []).state l (session W path u inputs).state ∧
      (session W path u inputs).exception = lastOf (session W path u []).exception l ∧
      List.Forall₂ (fun e t => ∃ s, t = UserText.text s ∧ Tells e s) (l.filterMap Prod.snd)
        ((session W path u inputs).err.drop (session W path u []).err.length) ∧
      (session W path u []).err <+: (session W path u inputs).err :=
  inputs_run W inputs (session W path u [])

namespace Ex

/-- A session on the ledger of the examples. Loading a file adds its name to what there is, and throws an exception if the name begins
with `x`; inputs likewise. -/
def userHost (files : Option Str) : UserHost Toy.ext Toy.lib (List Str) Str where
  front := front
  server _ := some (Toy.server ledger)
  loadExc := ⟨[none]⟩
  userClj := files
  loadFile f s := ((s.1, s.2 ++ [f]), if f.head? = some 'x' then some ⟨[some (str% "Syntax error"), none, some f]⟩ else none)
  eval i s := ((s.1, s.2 ++ [i]), if i.head? = some 'x' then some ⟨[none]⟩ else none)

/-- What can be compared of a session. -/
def userSeen (r : Repl Toy.ext (List Str)) : List Str × Option Exc × List UserText := (r.state.2, r.exception, r.err)

/-- The lines about the beanfile. -/
def ledgerLines : List UserText := [.load (.loaded ledger.length (str% "l")), .load (.result out.length)]

end Ex

/-- Non-vacuity of `C73_files_partial` and `C73_inputs`: the second of three files fails, and the third is loaded; of the inputs the
first throws an exception. -/
example : (∀ f ∈ [str% "a.clj", str% "x.clj", str% "c.clj"], FileName f) ∧
    listed [str% "a.clj", str% "x.clj", str% "c.clj"] = str% "a.clj:x.clj:c.clj" ∧
    Ex.userSeen (session (Ex.userHost (some (str% "a.clj:x.clj:c.clj"))) (str% "l") [] []) =
      ([str% "a.clj", str% "x.clj", str% "c.clj"], some ⟨[some (str% "Syntax error"), none, some (str% "x.clj")]⟩,
        Ex.ledgerLines ++ [.text (str% "Failed to load x.clj from $LIMABEAN_USER_CLJ\n"), .text (str% "Exception: Syntax error\nx.clj\n")]) ∧
    Ex.userSeen (session (Ex.userHost none) (str% "l") [] [str% "x1", str% "2"]) =
      ([str% "x1", str% "2"], some ⟨[none]⟩, Ex.ledgerLines ++ [.text (str% "Exception: ")]) := by
  refine ⟨?_, by decide +kernel, by decide +kernel, by decide +kernel⟩
  simp [FileName]

/-- C73 fails: if the variable is set but empty, a file without name is tried, and the user reads that it could not be loaded; the same
for an empty entry in the list. And of an exception without messages, as `(nth [] 1)` throws, the user reads nothing: what is written is
the same for all of them. -/
theorem C73_false :
    (∀ (W : UserHost E L U Input) (r : Repl E U), W.userClj = some [] → r.loadUserCljs W = r.loadClj W []) ∧
    (∀ (W : UserHost E L U Input) (r : Repl E U) (f f' : Str), FileName f → FileName f' → W.userClj = some (f ++ str% "::" ++ f') →
      r.loadUserCljs W = ((r.loadClj W f).loadClj W []).loadClj W f') ∧
    (∀ e : Exc, (∀ m ∈ e.via, m = none) ↔ exceptionText e = str% "Exception: ") := by
  refine ⟨fun W r h => ?_, fun W r f f' hf hf' h => ?_, fun e => ?_⟩
  · rw [Repl.loadUserCljs, h]
    rfl
  · have hc : components (listed [f, [], f']) = [f, [], f'] := components_join (fun c h => by
      simp only [List.mem_cons, List.not_mem_nil, or_false] at h
      rcases h with rfl | rfl | rfl
      · exact hf.2
      · simp
      · exact hf'.2) (by simp)
    have hl : f ++ str% "::" ++ f' = listed [f, [], f'] := by simp [listed, List.intercalate]
    have hs : splitColon (f ++ str% "::" ++ f') = [f, [], f'] := by
      rw [hl]
      unfold splitColon
      change (if (components (listed [f, [], f'])).length = 1 then _ else ((components (listed [f, [], f'])).reverse.dropWhile List.isEmpty).reverse) = _
      rw [hc]
      simp [hf'.1]
    rw [Repl.loadUserCljs, h]
    simp only [hs, List.foldl_cons, List.foldl_nil]
  · unfold exceptionText
    constructor
    · intro h
      have : e.via.filterMap id = [] := by
        rw [List.filterMap_eq_nil_iff]
        exact h
      rw [this]
      rfl
    · intro h m hm
      cases m with
      | none => rfl
      | some m =>
        rw [List.append_right_eq_self, List.flatMap_eq_nil_iff] at h
        have := h m (List.mem_filterMap.2 ⟨_, hm, rfl⟩)
        simp at this

end Limabean
