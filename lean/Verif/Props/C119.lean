/-
C119: the text at a place of the beanfile.

`(pod/resolve-spans pod spans)` tells the user what is written at places: the places of directives, and those which were made for the
directives of plugins. It answers one map for each place, in order. For a place which no source has, it answers nothing at all, and no
exception is thrown; the server has ended.
-/
import Verif.Clj.Source
import Verif.Proofs.ShallowLemmas
import Verif.Props.C28
import Verif.Props.C43
import Verif.Props.C66

namespace Limabean

open Spec Clj

variable {E : Ext} {L : BookLib}

/-- The map shows the source: its name, if it has one, the lines and the text. -/
structure Spec.ShowsSource (s : SpannedSource) (x : Data) : Prop where
  name : x.get (str% "file-name") = match s.fileName with | some n => .str n | none => .nil
  first : x.get (str% "start-line") = .num ⟨s.startLine, 0⟩
  last : x.get (str% "end-line") = .num ⟨s.endLine, 0⟩
  text : x.get (str% "content") = .str s.content
  only : ∀ k, x.has k = true → k ∈ [str% "file-name", str% "start-line", str% "end-line", str% "content"]

/-- A running server and a client which has read all its answers. -/
structure Spec.Running (pod : Pod E) (src : E.Sources) (parsed : Except (List ParserError) Parsed) : Prop where
  server : pod.server = some (.ready src parsed)
  read : pod.written = []
  ids : pod.nextId < 2147483647

namespace Clj

/-- A source as the client reads it. -/
def ofSource (s : SpannedSource) : Data :=
  .map (optEntry (str% "file-name") s.fileName .str ++
    [(str% "start-line", ofNat s.startLine), (str% "end-line", ofNat s.endLine), (str% "content", .str s.content)])

theorem decode_source {ord : List Data → List Data} (key : Option Str) (s : SpannedSource) :
    decode ord key (Wire.encSource s) = some (ofSource s) :=
  Entries.decode (ks := [str% "file-name"] ++ [str% "start-line", str% "end-line", str% "content"])
    ((Entries.opt fun _ _ => field_str (by decide) _).append
      (.cons (by rw [field_plain (by decide), decode_nat]) (.cons (by rw [field_plain (by decide), decode_nat])
        (.cons (field_str (by decide) _) .nil)))) (by decide) key

theorem ofSource_shows (s : SpannedSource) : ShowsSource s (ofSource s) := by
  obtain ⟨n, a, b, c⟩ := s
  cases n with
  | none =>
    refine ⟨rfl, rfl, rfl, rfl, fun k hk => ?_⟩
    simp only [ofSource, optEntry, Data.has, List.nil_append, AMap.get] at hk
    split at hk
    · rename_i e; simp [← e]
    · split at hk
      · rename_i e; simp [← e]
      · split at hk
        · rename_i e; simp [← e]
        · cases hk
  | some n =>
    refine ⟨rfl, rfl, rfl, rfl, fun k hk => ?_⟩
    simp only [ofSource, optEntry, Data.has, List.cons_append, List.nil_append, AMap.get] at hk
    split at hk
    · rename_i e; simp [← e]
    · split at hk
      · rename_i e; simp [← e]
      · split at hk
        · rename_i e; simp [← e]
        · split at hk
          · rename_i e; simp [← e]
          · cases hk

theorem decMethod_resolveSpans {ordm : List (Str × Json) → List (Str × Json)} (sps : List Span) (id : Nat) :
    Wire.decMethod (requestEntries ordm (str% "parser.resolve-spans") (.vec (sps.map ofSpan)) id) = some (.resolveSpans sps) := by
  have h : Json.all Wire.decSpan ((sps.map ofSpan).map (toJson ordm)) = some sps := by
    rw [List.map_map, Wire.all_map _ _ sps fun s _ => ?_]
    · rw [Function.comp, toJson_span]
      exact Wire.decSpan_encSpan s
  simp [Wire.decMethod, Json.req, params_field, method_field, toJson, Json.toStr, Json.toList, toJsons_eq] at h ⊢
  exact h

theorem levels_spans (sps : List Span) : levels (.vec (sps.map ofSpan)) < 127 := by
  have : levels (.vec (sps.map ofSpan)) ≤ 2 := depth_vec_le fun x hx => by
    obtain ⟨s, -, rfl⟩ := List.mem_map.1 hx
    exact (depth_ofSpan s).le
  omega

end Clj

/-- **C119**, for places which the sources of the server have: it answers the source at each place, in order, and goes on as before.
Full statement: for any places, either that or an exception. What is missing is the exception, see `C119_false`. -/
theorem C119_resolved_partial (F : Front E L) (ho : IsMapOrder F.ordm) {pod : Pod E} {src : E.Sources} {parsed : Except (List ParserError) Parsed}
    (hr : Running pod src parsed) (sps : List Span) (hk : ∀ sp ∈ sps, E.resolve src sp ≠ none) :
    ∃ l, pod.resolveSpans F (sps.map ofSpan) = ({ pod with nextId := pod.nextId + 1, served := pod.served + 1 }, some (.vec l)) ∧
      List.Forall₂ (fun sp x => ∃ s, E.resolve src sp = some s ∧ ShowsSource s x) sps l := by
  obtain ⟨n, s, k, w⟩ := pod
  obtain ⟨h1, h2, h3⟩ := hr
  simp only at h1 h2 h3
  subst h1 h2
  have hl : ∃ l, List.Forall₂ (fun sp s => E.resolve src sp = some s) sps l := by
    induction sps with
    | nil => exact ⟨[], .nil⟩
    | cons sp sps ih =>
      obtain ⟨l, hl⟩ := ih fun x hx => hk x (List.mem_cons_of_mem _ hx)
      obtain ⟨s, hs⟩ := Option.ne_none_iff_exists'.1 (hk sp List.mem_cons_self)
      exact ⟨s :: l, .cons hs hl⟩
  obtain ⟨l, hl⟩ := hl
  refine ⟨l.map ofSource, ?_, ?_⟩
  · unfold Pod.resolveSpans
    rw [invoke_ready F ho h3 (decMethod_resolveSpans sps _) (src' := src)
      (r := { id := some (.int ((n + 1 : Nat) : Int)), payload := .resolved l }) (by simp [Server.healthy, all_of_forall₂ hl]) (levels_spans sps)]
    dsimp only
    rw [answer_result (p := .resolved l) rfl (decode_list rfl fun x _ => decode_source none x)]
    rfl
  · induction hl with
    | nil => exact .nil
    | cons h _ ih => exact .cons ⟨_, h, ofSource_shows _⟩ (ih fun x hx => hk x (List.mem_cons_of_mem _ hx))

/-- **C119**: the places which were made for what plugins have written resolve to that: after `create-synthetic-spans`, `resolve-spans`
on its answer tells the name and the text of each item, in order. -/
theorem C119_created (hE : SpanStore E) (F : Front E L) (ho : IsMapOrder F.ordm) {pod : Pod E} {src : E.Sources}
    {parsed : Except (List ParserError) Parsed} (hr : Running pod src parsed) (hn : pod.nextId + 1 < 2147483647) (items : List SyntheticSpan) :
    ∃ pod' spans pod'' l, pod.createSpans F items = (pod', some spans) ∧ pod'.resolveSpans F spans = (pod'', some (.vec l)) ∧
      (∃ src', pod''.server = some (.ready src' parsed)) ∧
      List.Forall₂ (fun (i : SyntheticSpan) x => x.get (str% "file-name") = .str i.name ∧ x.get (str% "content") = .str i.content) items l := by
  obtain ⟨n, s, k, w⟩ := pod
  obtain ⟨h1, h2, h3⟩ := hr
  simp only at h1 h2 h3 hn
  subst h1 h2
  have hc := hE.createdAll src items
  have hr' : Running ({ nextId := n + 1, server := some (.ready (Server.createSpans src items).1 parsed), served := k + 1 } : Pod E)
      (Server.createSpans src items).1 parsed := ⟨rfl, rfl, hn⟩
  obtain ⟨l, g1, g2⟩ := C119_resolved_partial F ho hr' (Server.createSpans src items).2 (by
    intro sp hsp
    obtain ⟨i, -, x, hx, -⟩ := forall₂_right hc hsp
    rw [hx]
    simp)
  refine ⟨_, _, _, l, createSpans_ok F ho h3 src parsed items, g1, ⟨(Server.createSpans src items).1, rfl⟩, ?_⟩
  clear g1 hr'
  revert hc g2
  generalize (Server.createSpans src items).2 = sps
  generalize (Server.createSpans src items).1 = src'
  intro hc g2
  induction hc generalizing l with
  | nil => cases g2; exact .nil
  | cons h _ ih =>
    cases g2 with
    | cons h' g =>
      refine .cons ?_ (ih _ g)
      obtain ⟨s, e, hs⟩ := h'
      obtain ⟨x, hx, hn, hcn⟩ := h
      cases hx.symm.trans e
      rw [hs.name, hs.text, hn, hcn]
      exact ⟨rfl, rfl⟩

/-! ### After loading -/

namespace Clj

/-- What holds of the process at the start and is kept by every call holds after loading, which makes at most seven. -/
theorem load_invariant (F : Front E L) {I : Nat → Pod E → Prop} (hmono : ∀ n pod, I n pod → I (n + 1) pod)
    (hinv : ∀ n pod m p, I n pod → I (n + 1) (pod.invoke F m p).1) {s : Server E} (h0 : I 0 { server := some s }) {m : LoadedBeans E}
    (h : loadBeanfile F s = .ok m) : I 7 m.pod := by
  have hle : ∀ {a b pod}, I a pod → a ≤ b → I b pod := by
    intro a b pod ha hb
    induction hb with
    | refl => exact ha
    | step _ ih => exact hmono _ _ ih
  -- one stage
  have hskip : ∀ {n k : Nat} {m0 m' : LoadedBeans E} {f : Stage E} {fs : List (Stage E)}, I n m0.pod →
      (∀ m1, f m0 = .ok m1 → I (n + k) m1.pod) → bindAll m0 (f :: fs) = .ok m' → ∃ m1, I (n + k) m1.pod ∧ bindAll m1 fs = .ok m' := by
    intro n k m0 m' f fs hi hf hb
    rw [bindAll] at hb
    split at hb
    · exact ⟨m0, hle hi (by omega), hb⟩
    · cases hm : f m0 with
      | error pod => rw [hm] at hb; cases hb
      | ok m1 => rw [hm] at hb; exact ⟨m1, hf m1 hm, hb⟩
  have hplug : ∀ {n : Nat} {raw : Bool} {m0 m1 : LoadedBeans E}, I n m0.pod → runPluginsStage F raw m0 = .ok m1 → I (n + 1) m1.pod := by
    intro n raw m0 m1 hi hm
    unfold runPluginsStage at hm
    dsimp only at hm
    split at hm
    · cases hm; exact hmono _ _ hi
    · have ht : ∀ ps ds, I (n + 1) (transformed F raw ps m0.pod ds).1 := by
        intro ps ds
        unfold transformed
        split
        · exact hmono _ _ hi
        · unfold mergeWithPod
          dsimp only
          split
          · exact hmono _ _ hi
          · exact hinv _ _ _ _ hi
      have h1 := ht (pluginsOfKind raw (m0.plugins.getD [])) ((if raw then m0.rawDirectives else m0.bookedDirectives).getD [])
      split at hm <;> rename_i heq <;> rw [heq] at h1 <;> cases hm <;> exact h1
  unfold loadBeanfile Pod.start at h
  have hs := hinv 0 _ (str% "status") .nil h0
  dsimp only at h
  split at h
  · cases h
  · rename_i pod hst
    have hpod : pod = (Pod.invoke F { server := some s } (str% "status") .nil).1 := by
      split at hst
      · cases hst
      · split at hst <;> cases hst; rfl
    rw [← hpod] at hs
    split at h
    · cases h
    · rename_i m' hb
      cases h
      rw [stages] at hb
      obtain ⟨m1, i1, hb⟩ := hskip (k := 2) hs (by
        intro m1 hm
        unfold getPluginsAndOptions Pod.plugins Pod.options at hm
        dsimp only at hm
        have h1 := hinv _ _ (str% "parser.plugins") .nil hs
        have h2 := hinv _ _ (str% "parser.options") .nil h1
        split at hm
        · cases hm
        · rename_i heq
          obtain rfl := (Prod.mk.inj heq).1
          split at hm
          · split at hm
            · cases hm
            · rename_i heq
              obtain rfl := (Prod.mk.inj heq).1
              cases hm
              exact h2
          · cases hm
            exact hmono _ _ h1) hb
      obtain ⟨m2, i2, hb⟩ := hskip (k := 1) i1 (by
        intro m2 hm
        unfold getRawDirectives Pod.directives at hm
        dsimp only at hm
        have h1 := hinv _ _ (str% "parser.directives") .nil i1
        split at hm
        · cases hm
        · rename_i heq
          obtain rfl := (Prod.mk.inj heq).1
          split at hm
          · cases hm
            exact h1
          · cases hm) hb
      obtain ⟨m3, i3, hb⟩ := hskip (k := 1) i2 (fun _ => hplug i2) hb
      obtain ⟨m4, i4, hb⟩ := hskip (k := 1) i3 (by
        intro m4 hm
        unfold bookRawDirectives Pod.book at hm
        dsimp only at hm
        have h1 := hinv _ _ (str% "book") (match m3.rawXfDirectives with | some l => .vec l | none => .nil) i3
        split at hm
        · rename_i heq
          obtain rfl := (Prod.mk.inj heq).1
          cases hm
          exact h1
        · rename_i heq
          obtain rfl := (Prod.mk.inj heq).1
          split at hm <;> cases hm <;> exact h1) hb
      obtain ⟨m5, i5, hb⟩ := hskip (k := 1) i4 (fun _ => hplug i4) hb
      obtain ⟨m6, i6, hb⟩ := hskip (k := 0) i5 (by
        intro m6 hm
        cases hm
        exact i5) hb
      obtain ⟨m7, i7, hb⟩ := hskip (k := 0) i6 (by
        intro m7 hm
        unfold setRegistry at hm
        split at hm <;> cases hm
        exact i6) hb
      cases hb
      exact i7

/-- The process has answered everything, and its server, if it lives, has the same ledger and still knows the places. -/
def Attached (src : E.Sources) (parsed : Except (List ParserError) Parsed) (n : Nat) (pod : Pod E) : Prop :=
  pod.written = [] ∧ pod.nextId ≤ n ∧ ∀ s, pod.server = some s → ∃ src', s = .ready src' parsed ∧ Keeps E src src'

theorem Attached.invoke (hE : SpanStore E) (F : Front E L) {src : E.Sources} {parsed : Except (List ParserError) Parsed} {n : Nat} {pod : Pod E}
    (h : Attached src parsed n pod) (m : Str) (p : Data) : Attached src parsed (n + 1) (pod.invoke F m p).1 := by
  obtain ⟨i, sv, k, w⟩ := pod
  obtain ⟨h1, h2, h3⟩ := h
  simp only at h1 h2 h3
  subst h1
  cases sv with
  | none =>
    refine ⟨rfl, ?_, fun s hs => ?_⟩
    · show i + 1 ≤ n + 1
      omega
    · cases hs
  | some s =>
    obtain ⟨src', rfl, hk⟩ := h3 s rfl
    simp only [Pod.invoke, Pod.write]
    cases hd : Server.dispatch E L (F.orders k) (.ready src' parsed) (lineOf E (toJson F.ordm (message m p (i + 1)))) with
    | none =>
      refine ⟨rfl, ?_, fun s hs => ?_⟩
      · show i + 1 ≤ n + 1
        omega
      · cases hs
    | some x =>
      obtain ⟨s', r⟩ := x
      have hl := (dispatch_ledger hd).1
      refine ⟨rfl, ?_, fun s hs => ?_⟩
      · show i + 1 ≤ n + 1
        omega
      · cases hs
        cases s' with
        | unreadable m => exact hl.elim
        | ready src'' parsed' =>
          have hp : parsed = parsed' := hl
          subst hp
          refine ⟨src'', rfl, fun sp x hx => ?_⟩
          obtain ⟨_, _, e, hx⟩ := Resolves.dispatch hE hd ⟨_, _, rfl, hk sp x hx⟩
          cases e
          exact hx

end Clj

/-- **C119**, after loading: whatever plugins have done, and whatever else was loaded or reported, unless the server has ended
`resolve-spans` tells what is written at every place which the beanfile has; for the places of its directives in particular. -/
theorem C119_loaded (hE : SpanStore E) (F : Front E L) (ho : IsMapOrder F.ordm) (src : E.Sources) {parsed : Except (List ParserError) Parsed}
    {m : LoadedBeans E} (h : loadBeanfile F (.ready src parsed) = .ok m) (ha : m.pod.server ≠ none) (sps : List Span)
    (hk : ∀ sp ∈ sps, E.resolve src sp ≠ none) :
    ∃ pod l, m.pod.resolveSpans F (sps.map ofSpan) = (pod, some (.vec l)) ∧
      List.Forall₂ (fun sp x => ∃ s, E.resolve src sp = some s ∧ ShowsSource s x) sps l := by
  obtain ⟨h1, h2, h3⟩ := load_invariant F (I := Attached src parsed) (fun n pod h => ⟨h.1, by have := h.2.1; omega, h.2.2⟩)
    (fun n pod m p h => h.invoke hE F m p) ⟨rfl, Nat.zero_le _, fun s hs => by cases hs; exact ⟨src, rfl, fun _ _ h => h⟩⟩ h
  obtain ⟨s, hs⟩ := Option.ne_none_iff_exists'.1 ha
  obtain ⟨src', rfl, hkeep⟩ := h3 s hs
  have hk' : ∀ sp ∈ sps, ∃ x, E.resolve src sp = some x ∧ E.resolve src' sp = some x := fun sp hsp => by
    obtain ⟨x, hx⟩ := Option.ne_none_iff_exists'.1 (hk sp hsp)
    exact ⟨x, hx, hkeep sp x hx⟩
  obtain ⟨l, g1, g2⟩ := C119_resolved_partial F ho ⟨hs, h1, by omega⟩ sps (fun sp hsp => by
    obtain ⟨x, -, hx⟩ := hk' sp hsp
    rw [hx]
    simp)
  refine ⟨_, l, g1, ?_⟩
  clear g1
  induction g2 with
  | nil => exact .nil
  | cons hx _ ih =>
    refine .cons ?_ (ih (fun sp hsp => hk sp (List.mem_cons_of_mem _ hsp)) fun sp hsp => hk' sp (List.mem_cons_of_mem _ hsp))
    obtain ⟨s, e, hs⟩ := hx
    obtain ⟨x, e1, e2⟩ := hk' _ List.mem_cons_self
    cases e.symm.trans e2
    exact ⟨_, e1, hs⟩

/-- **C119** is false of places which no source has: the user gets nothing, neither a source nor an exception, and the server has ended. -/
theorem C119_false (F : Front E L) (ho : IsMapOrder F.ordm) {pod : Pod E} {src : E.Sources} {parsed : Except (List ParserError) Parsed}
    (hr : Running pod src parsed) (sps : List Span) {sp : Span} (hm : sp ∈ sps) (hk : E.resolve src sp = none) :
    ∃ pod', pod.resolveSpans F (sps.map ofSpan) = (pod', some .nil) ∧ pod'.server = none := by
  obtain ⟨n, s, k, w⟩ := pod
  obtain ⟨h1, h2, h3⟩ := hr
  simp only at h1 h2 h3
  subst h1 h2
  have hall : Json.all (E.resolve src) sps = none := by
    induction sps with
    | nil => cases hm
    | cons a sps ih =>
      rcases List.mem_cons.1 hm with rfl | hm
      · simp [Json.all, hk]
      · have := ih hm
        simp only [Json.all, this]
        cases E.resolve src a <;> rfl
  have h : Server.dispatch E L (F.orders k) (.ready src parsed) (.json (toJson F.ordm (message (str% "parser.resolve-spans") (.vec (sps.map ofSpan)) (n + 1)))) = none := by
    rw [Server.dispatch, decRequest_message ho _ _ (by omega), decMethod_resolveSpans]
    simp only [Option.map_some, Server.answer]
    rw [if_neg (by simp)]
    simp [Server.healthy, hall]
  refine ⟨{ nextId := n + 1, server := none, served := k }, ?_, rfl⟩
  unfold Pod.resolveSpans
  simp [Pod.invoke, Pod.write, lineOf_message E ho (levels_spans sps), h, Pod.read, answerOf, okOrThrow, Data.truthy]

namespace Ex

/-- A client of a running server whose only source is a beanfile. -/
def reader : Pod Toy.ext := { nextId := 3, server := some (.ready [(str% "my.beancount", str% "2010-01-01 open Assets:Bank")] (.error [])), served := 3 }

end Ex

/-- Non-vacuity of C119: a place which the beanfile has, and one which it has not. -/
example : Running Ex.reader [(str% "my.beancount", str% "2010-01-01 open Assets:Bank")] (.error []) ∧
    Toy.ext.resolve [(str% "my.beancount", str% "2010-01-01 open Assets:Bank")] ⟨0, 0, 27⟩ ≠ none ∧
    Toy.ext.resolve [(str% "my.beancount", str% "2010-01-01 open Assets:Bank")] ⟨1, 0, 27⟩ = none ∧
    (match (Ex.reader.resolveSpans Ex.strictFront [ofSpan ⟨0, 0, 27⟩]).2 with
      | some (.vec [x]) => (match x.get (str% "content") with | .str s => decide (s = str% "2010-01-01 open Assets:Bank") | _ => false)
      | _ => false) = true :=
  ⟨⟨rfl, rfl, by decide⟩, by decide +kernel, by decide +kernel, by decide +kernel⟩

namespace Ex

/-- A ledger with a plugin which makes new directives, read from a beanfile. -/
def pluggedIn : Server Toy.ext :=
  match withPlugin patient with
  | .ready _ p => .ready [(str% "my.beancount", str% "2010-01-01 open Assets:Bank")] p
  | s => s

/-- Load, and then ask for the text at a place. -/
def askedAfter (F : Front Toy.ext Toy.lib) (s : Server Toy.ext) (sp : Span) : Option Str :=
  match loadBeanfile F s with
  | .error _ => none
  | .ok m => match (m.pod.resolveSpans F [ofSpan sp]).2 with
    | some (.vec [x]) => (match x.get (str% "content") with | .str t => some t | _ => none)
    | _ => none

end Ex

/-- Non-vacuity of `C119_loaded`: plugins have made places, and the text of the beanfile is still told. -/
example : SpanStore Toy.ext ∧ IsMapOrder Ex.stampingFront.ordm ∧
    Toy.ext.resolve [(str% "my.beancount", str% "2010-01-01 open Assets:Bank")] ⟨0, 0, 27⟩ ≠ none ∧
    (match loadBeanfile Ex.stampingFront Ex.pluggedIn with
      | .ok m => (match m.pod.server with | some (.ready l _) => decide (1 < l.length) | _ => false)
      | .error _ => false) = true ∧
    Ex.askedAfter Ex.stampingFront Ex.pluggedIn ⟨0, 0, 27⟩ = some (str% "2010-01-01 open Assets:Bank") :=
  ⟨Toy.spanStore, fun l => .refl l, by decide +kernel, by decide +kernel, by decide +kernel⟩

end Limabean
