/-
C50: at most one live pod.

False: if loading or printing the errors throws, then the process which has been started is in no variable, and is never stopped. This
happens when a plugin reports an error on a directive without span (`C50_false`). It holds if neither throws (`C50_partial`), which is the
case if the server can read the reports of plugins and the registry can be built (`C50_orderly`).
-/
import Verif.Props.C41
import Verif.Proofs.ShallowLemmas

namespace Limabean

open Clj Spec

variable {E : Ext} {L : BookLib}

namespace Spec

/-- Loading and printing the errors end without an exception; or the process is stopped because it cannot read the beanfile. -/
def Orderly (F : Front E L) : Option (Server E) → Prop
  | none => True
  | some s => match loadBeanfile F s with
    | .error p => p = none
    | .ok m => (printErrors F m.pod m.error).2.2 = true

/-- The sessions which come about one after the other. -/
inductive Sessions (F : Front E L) (ok : Option (Server E) → Prop) : Session → Prop
  | new : Sessions F ok {}
  | load {σ : Session} (s : Option (Server E)) : Sessions F ok σ → ok s → Sessions F ok (σ.load F s)

end Spec

namespace Clj

/-- The live processes are at most the one in `*beans*`. -/
def OnlyCurrent (σ : Session) : Prop := σ.live = [] ∨ ∃ p, σ.live = [p] ∧ σ.current = some p

theorem OnlyCurrent.stop {σ : Session} (h : OnlyCurrent σ) : σ.stop.live = [] := by
  rcases h with h | ⟨p, h, h'⟩
  · simp only [Session.stop, h]
    split <;> simp
  · simp [Session.stop, h, h']

theorem OnlyCurrent.load (F : Front E L) {σ : Session} (h : OnlyCurrent σ) {s : Option (Server E)} (ho : Orderly F s) :
    OnlyCurrent (σ.load F s) := by
  have hs := h.stop
  cases s with
  | none => exact .inl hs
  | some s =>
    simp only [Orderly] at ho
    simp only [Session.load]
    split at ho
    · subst ho
      rename_i h1
      rw [h1]
      left
      simp [Session.loaded, Session.start, hs]
    · rename_i m h1
      rw [h1]
      dsimp only
      rw [ho]
      cases (printErrors F m.pod m.error).1.alive with
      | true =>
        right
        exact ⟨σ.stop.next, by simp [Session.loaded, Session.start, hs], by simp [Session.loaded, Session.start]⟩
      | false =>
        left
        simp [Session.loaded, Session.start, hs]

end Clj

/-- C50 for sessions in which loading and printing errors do not throw: after any number of loads at most one process is alive, and it is
the one which the session refers to; the next load stops it before it starts another. Missing: loads which throw, for which it is false
(`C50_false`). -/
theorem C50_partial (F : Front E L) {σ : Session} (h : Sessions F (Orderly F) σ) :
    σ.live.length ≤ 1 ∧ (∀ p ∈ σ.live, σ.current = some p) ∧ σ.stop.live = [] := by
  have : OnlyCurrent σ := by
    induction h with
    | new => exact .inl rfl
    | load s _ ho ih => exact ih.load F ho
  refine ⟨?_, ?_, this.stop⟩
  · rcases this with h | ⟨p, h, -⟩ <;> simp [h]
  · rcases this with h | ⟨p, h, h'⟩
    · simp [h]
    · simp [h, h']

namespace Ex

/-- A raw plugin which adds a directive with an error at the end. -/
def complaining : Plugin where
  name := str% "complaining"
  step l := [.old (l.length - 1)]
  finish _ := [.new (.map [(str% "dct", .kw (str% "note")),
    (str% "err", .vec [.map [(str% "message", .str (str% "no opening")), (str% "plugin", .str (str% "complaining"))]])])]

/-- A front end which finds that plugin, whatever the name. -/
def complainingFront : Front Toy.ext Toy.lib := { front with resolve := fun _ _ => (some complaining, none, none) }

end Ex

/-- C50 is false: each load of a ledger with a plugin which reports an error on a directive without span leaves a process behind. -/
theorem C50_false : ((({} : Session).load Ex.complainingFront (some (Ex.withPlugin []))).load Ex.complainingFront
    (some (Ex.withPlugin []))) = { next := 2, current := none, live := [1, 0] } := by
  decide +kernel

namespace Clj

/-- The process answers or has ended, and nothing waits to be read. -/
structure PodOk (parsed : Except (List ParserError) Parsed) (n : Nat) (pod : Pod E) : Prop where
  id : pod.nextId ≤ n
  written : pod.written = []
  server : pod.server = none ∨ ∃ src, pod.server = some (.ready src parsed)

theorem invoke_podOk (F : Front E L) {parsed : Except (List ParserError) Parsed} {n : Nat} {pod : Pod E} (h : PodOk parsed n pod)
    (m : Str) (p : Data) : PodOk parsed (n + 1) (pod.invoke F m p).1 := by
  obtain ⟨id, s, k, w⟩ := pod
  obtain ⟨h1, h2, h3⟩ := h
  simp only at h1 h2 h3
  subst h2
  rcases h3 with rfl | ⟨src, rfl⟩
  · exact ⟨Nat.succ_le_succ h1, rfl, .inl rfl⟩
  · simp only [Pod.invoke, Pod.write]
    cases hd : Server.dispatch E L (F.orders k) (.ready src parsed) (lineOf E (toJson F.ordm (message m p (id + 1)))) with
    | none => exact ⟨Nat.succ_le_succ h1, rfl, .inl rfl⟩
    | some x =>
      obtain ⟨s', r⟩ := x
      refine ⟨Nat.succ_le_succ h1, rfl, .inr ?_⟩
      have h4 : ∀ line, Server.dispatch E L (F.orders k) (.ready src parsed) line = some (s', r) → ∃ src, some s' = some (.ready src parsed) := by
        intro line hd
        unfold Server.dispatch at hd
        split at hd
        · cases hd
        · cases hd
          exact ⟨src, rfl⟩
        · split at hd
          · cases hd
            exact ⟨src, rfl⟩
          · simp only [Server.answer] at hd
            split at hd
            · cases hd
              exact ⟨src, rfl⟩
            · rw [Option.map_eq_some_iff] at hd
              obtain ⟨⟨src', r'⟩, -, hd⟩ := hd
              cases hd
              exact ⟨src', rfl⟩
      exact h4 _ hd

/-- Reports which the server can read are printed. -/
theorem printError_ok (F : Front E L) (ho : IsMapOrder F.ordm) {parsed : Except (List ParserError) Parsed} {n : Nat} {pod : Pod E}
    (h : PodOk parsed n pod) (hn : n < 2147483647) (msg exc : List Str) {rs : List Data} {ds : List Report}
    (hd : Json.all Wire.decReport (rs.map (toJson F.ordm)) = some ds) (hp : NotTooDeep rs) :
    (printError F pod msg (some rs) exc).2.2 = true := by
  obtain ⟨id, s, k, w⟩ := pod
  obtain ⟨h1, h2, h3⟩ := h
  simp only at h1 h2 h3
  subst h2
  have key : ∃ t, (Pod.formatErrors F { nextId := id, server := s, served := k } rs).2 = some t := by
    unfold Pod.formatErrors
    rcases h3 with rfl | ⟨src, rfl⟩
    · rw [invoke_dead F rfl rfl]
      exact ⟨_, rfl⟩
    · have hx : Wire.decMethod (requestEntries F.ordm (str% "parser.format-errors") (.vec rs) (id + 1)) = some (.formatErrors ds) := by
        rw [decMethod_formatErrors, hd]
        rfl
      cases hf : Server.formatReports src true false ds with
      | none =>
        rw [invoke_dies F ho (by omega) hx (by simp [Server.healthy, hf]) (notTooDeep_iff.1 hp)]
        exact ⟨_, rfl⟩
      | some t =>
        rw [invoke_ready F ho (by omega) hx (src' := src) (r := { id := some (.int ((id + 1 : Nat) : Int)), payload := .report t })
          (by simp [Server.healthy, hf]) (notTooDeep_iff.1 hp)]
        dsimp only
        rw [answer_result (p := .report t) rfl (decode_str _ _)]
        exact ⟨_, rfl⟩
  obtain ⟨t, ht⟩ := key
  unfold printError
  dsimp only
  split
  · rename_i h
    rw [h] at ht
    cases ht
  · rfl

theorem decReport_toJson {ordm : List (Str × Json) → List (Str × Json)} (ho : IsMapOrder ordm) (r : Report) :
    Wire.decReport (toJson ordm (ofReport r)) = some r := by
  obtain ⟨message, reason, span, contexts, related, annotation⟩ := r
  simp only [ofReport, toJson, entriesToJson_eq]
  rw [decReport_perm ?_ (ho _)]
  · simp only [List.map_append, toJson_optEntry, List.map_cons, List.map_nil, toJson, toJson_span, toJsons_eq, List.map_map,
      Function.comp_def, toJson_labelled]
    have hrel : ∀ l : List (Str × Span), Json.toList Wire.decLabelled (.arr (l.map fun x => Wire.encLabelled x)) = some l := toList_labelled
    cases annotation <;> cases contexts <;> cases related <;>
      simp [Wire.decReport, Json.req, Json.opt, Json.field, Json.vals, Json.entry, Json.toStr, Wire.decSpan_encSpan, hrel]
  · simp only [List.map_map, List.map_append]
    cases annotation <;> cases contexts <;> cases related <;> simp [optEntry]

theorem start_unreadable (F : Front E L) (ho : IsMapOrder F.ordm) (msg : Str) : Pod.start F (.unreadable msg : Server E) = .error none := by
  have h : Server.dispatch E L (F.orders 0) (.unreadable msg) (lineOf E (toJson F.ordm (message (str% "status") .nil 1))) =
      some (.unreadable msg, Server.otherError (some (.int ((1 : Nat) : Int))) Server.errorBeanfileIo msg) := by
    rw [lineOf_message E ho (by simp [levels]), Server.dispatch, decRequest_message ho _ _ (by omega), decMethod_plain (x := .status) (by simp)]
    rfl
  simp only [Pod.start, Pod.invoke, Pod.write, Nat.zero_add, h, Pod.read, List.nil_append, answer_other]
  rfl

/-- The errors of the stages after reading the directives. -/
def LateError : Option LoadError → Prop
  | some (.parser _) => False
  | some (.plugins _) => False
  | _ => True

theorem mergeWithPod_podOk (F : Front E L) {parsed : Except (List ParserError) Parsed} {n : Nat} {pod : Pod E} (h : PodOk parsed n pod)
    (ds : List Data) : PodOk parsed (n + 1) (mergeWithPod F pod ds).1 := by
  unfold mergeWithPod
  dsimp only
  split
  · exact ⟨Nat.le_succ_of_le h.id, h.written, h.server⟩
  · exact invoke_podOk F h _ _

theorem PodOk.mono {parsed : Except (List ParserError) Parsed} {n n' : Nat} {pod : Pod E} (h : PodOk parsed n pod) (hn : n ≤ n') :
    PodOk parsed n' pod := ⟨Nat.le_trans h.id hn, h.written, h.server⟩

theorem plugins_podOk (F : Front E L) (raw : Bool) {parsed : Except (List ParserError) Parsed} {n : Nat} {m : LoadedBeans E}
    (h : PodOk parsed n m.pod) (he : m.error = none) :
    ∃ m', runPluginsStage F raw m = .ok m' ∧ PodOk parsed (n + 1) m'.pod ∧ LateError m'.error := by
  unfold runPluginsStage
  dsimp only
  split
  · exact ⟨m, rfl, h.mono (by omega), by rw [he]; trivial⟩
  · have : ∀ ps ds, PodOk parsed (n + 1) (transformed F raw ps m.pod ds).1 := by
      intro ps ds
      unfold transformed
      split
      · exact h.mono (by omega)
      · exact mergeWithPod_podOk F h _
    split
    · rename_i pod hp
      have h1 := this (pluginsOfKind raw (m.plugins.getD [])) ((if raw then m.rawDirectives else m.bookedDirectives).getD [])
      rw [hp] at h1
      exact ⟨_, rfl, h1, trivial⟩
    · rename_i pod xs hp
      have h1 := this (pluginsOfKind raw (m.plugins.getD [])) ((if raw then m.rawDirectives else m.bookedDirectives).getD [])
      rw [hp] at h1
      refine ⟨_, rfl, h1, ?_⟩
      dsimp only
      rw [he]
      split <;> trivial

theorem book_podOk (F : Front E L) {parsed : Except (List ParserError) Parsed} {n : Nat} {m : LoadedBeans E}
    (h : PodOk parsed n m.pod) (he : m.error = none) :
    ∃ m', bookRawDirectives F m = .ok m' ∧ PodOk parsed (n + 1) m'.pod ∧ LateError m'.error := by
  have : PodOk parsed (n + 1) (m.pod.book F m.rawXfDirectives).1 := invoke_podOk F h _ _
  unfold bookRawDirectives
  dsimp only
  split
  · rename_i pod hp
    rw [hp] at this
    exact ⟨_, rfl, this, trivial⟩
  · rename_i pod r hp
    rw [hp] at this
    split
    · exact ⟨_, rfl, this, by rw [he]; trivial⟩
    · exact ⟨_, rfl, this, trivial⟩

/-- The stages after reading the directives end. -/
theorem late_stages (F : Front E L) (hreg : ∀ ds o, (F.registry ds o).isSome = true) {parsed : Except (List ParserError) Parsed} {n : Nat}
    {m : LoadedBeans E} (h : PodOk parsed n m.pod) (he : m.error = none) :
    ∃ m', bindAll m ((stages F).drop 2) = .ok m' ∧ PodOk parsed (n + 3) m'.pod ∧ LateError m'.error := by
  simp only [stages, List.drop_succ_cons, List.drop_zero]
  obtain ⟨m1, h1, hp1, hl1⟩ := plugins_podOk F true h he
  rw [bindAll, if_neg (by simp [he]), h1]
  dsimp only
  cases he1 : m1.error with
  | some e => exact ⟨m1, bindAll_error (by simp [he1]) _, hp1.mono (by omega), hl1⟩
  | none =>
    obtain ⟨m2, h2, hp2, hl2⟩ := book_podOk F hp1 he1
    rw [bindAll, if_neg (by simp [he1]), h2]
    dsimp only
    cases he2 : m2.error with
    | some e => exact ⟨m2, bindAll_error (by simp [he2]) _, hp2.mono (by omega), hl2⟩
    | none =>
      obtain ⟨m3, h3, hp3, hl3⟩ := plugins_podOk F false hp2 he2
      rw [bindAll, if_neg (by simp [he2]), h3]
      dsimp only
      cases he3 : m3.error with
      | some e => exact ⟨m3, bindAll_error (by simp [he3]) _, hp3.mono (by omega), hl3⟩
      | none =>
        rw [bindAll, if_neg (by simp [he3])]
        simp only [setDirectives]
        rw [bindAll, if_neg (by simp [he3])]
        simp only [setRegistry]
        obtain ⟨x, hx⟩ := Option.isSome_iff_exists.1
          (hreg ((some ((m3.bookedXfDirectives.or m3.bookedDirectives).getD [])).getD []) m3.options)
        rw [hx]
        exact ⟨_, rfl, hp3.mono (by omega), by dsimp only; rw [he3]; trivial⟩

/-- What the client makes of the beanfile before running plugins. -/
theorem first_stages (F : Front E L) (ho : IsMapOrder F.ordm) (hs : IsOrder F.ord) (src : E.Sources) {p : Parsed}
    (hp : OptionsOk p.options) (hd : ∀ d ∈ p.directives, DatesOk d) :
    ∃ m, bindAll { pod := ready 1 src (.ok p) } ((stages F).take 2) = .ok m ∧ PodOk (.ok p) 4 m.pod ∧
      (m.error = none ∨ ∃ l, m.error = some (.plugins l)) ∧ (∃ o, m.plugins = some (resolvedOf F p o)) ∧ m.rawXfDirectives = none := by
  by_cases hr : ∀ o, ∀ r ∈ resolvedOf F p o, r.err = none
  · obtain ⟨o, -, h⟩ := prepared F ho hs src hp hd hr
    exact ⟨_, h, ⟨Nat.le_refl _, rfl, .inr ⟨src, rfl⟩⟩, .inl rfl, ⟨o, rfl⟩, rfl⟩
  · obtain ⟨o, hx, h⟩ := options_ok F ho hs (n := 2) (by omega) src hp
    simp only [stages, List.take_succ_cons, List.take_zero, bindAll, Option.isSome_none, Bool.false_eq_true, if_false, getPluginsAndOptions,
      plugins_ok F ho (n := 1) (by omega), h, Data.truthy, if_true, Data.elems]
    by_cases hh : (((p.plugins.map ofPlugin).map (resolvePlugin F o)).filter (fun p => p.err.isSome)).isEmpty = true
    · simp only [hh, if_true, Option.isSome_none, Bool.false_eq_true, if_false, getRawDirectives,
        directives_ok F ho hs (n := 3) (by omega) src hd, Data.truthy]
      exact ⟨_, rfl, ⟨Nat.le_refl _, rfl, .inr ⟨src, rfl⟩⟩, .inl rfl, ⟨o, rfl⟩, rfl⟩
    · simp only [hh, Bool.false_eq_true, if_false, Option.isSome_some, if_true]
      exact ⟨_, rfl, ⟨by simp [ready], rfl, .inr ⟨src, rfl⟩⟩, .inr ⟨_, rfl⟩, ⟨o, rfl⟩, rfl⟩

end Clj

namespace Spec

/-- The server can read the reports: they are reports, and not nested too deeply. -/
def Readable (ordm : List (Str × Json) → List (Str × Json)) (rs : List Data) : Prop :=
  NotTooDeep rs ∧ ∃ l, Json.all Wire.decReport (rs.map (toJson ordm)) = some l

/-- The reports which are made of an error can be read by the server. -/
def PrintableError (ordm : List (Str × Json) → List (Str × Json)) : LoadError → Prop
  | .dctErrors _ l => ∃ rs, dctReports l = some rs ∧ Readable ordm rs
  | .booking rs => ∃ l, rs = some l ∧ Readable ordm l
  | _ => True

end Spec

/-- Loads are orderly if the server can read the errors which plugins report and the reports of a failed booking, and building the
registry does not throw. Nothing is assumed of other errors. -/
theorem C50_orderly (F : Front E L) (ho : IsMapOrder F.ordm) (hs : IsOrder F.ord) (hreg : ∀ ds o, (F.registry ds o).isSome = true)
    {s : Server E} (hp : ∀ src p, s = .ready src (.ok p) → OptionsOk p.options ∧ ∀ d ∈ p.directives, DatesOk d)
    (he : ∀ m e, loadBeanfile F s = .ok m → m.error = some e → PrintableError F.ordm e) : Orderly F (some s) := by
  have print : ∀ {parsed : Except (List ParserError) Parsed} {n : Nat} {m : LoadedBeans E}, PodOk parsed n m.pod → n < 2147483647 →
      loadBeanfile F s = .ok m → (LateError m.error ∨ ∃ l, m.error = some (.plugins l)) →
      (printErrors F m.pod m.error).2.2 = true := by
    intro parsed n m h hn hm hl
    have none_ok : ∀ msg exc, (printError F m.pod msg (some []) exc).2.2 = true := fun msg exc =>
      printError_ok F ho h hn msg exc (ds := []) rfl (by simp [NotTooDeep])
    cases hme : m.error with
    | none => rfl
    | some e =>
      have hpe := he m e hm hme
      cases e with
      | plugins l => rfl
      | parser r => rw [hme] at hl; rcases hl with hl | ⟨l, hl⟩; exact hl.elim; cases hl
      | dctErrors raw l =>
        obtain ⟨rs, h1, h3, ds, h2⟩ := hpe
        simp only [printErrors, h1]
        exact printError_ok F ho h hn _ _ h2 h3
      | pluginException raw => exact none_ok _ _
      | booking rs =>
        obtain ⟨l, rfl, h3, ds, h2⟩ := hpe
        exact printError_ok F ho h hn _ _ h2 h3
      | bookingException => exact none_ok _ _
  simp only [Orderly]
  cases s with
  | unreadable msg =>
    have : loadBeanfile F (.unreadable msg : Server E) = .error none := by
      unfold loadBeanfile
      rw [start_unreadable F ho]
    rw [this]
  | ready src parsed =>
    cases parsed with
    | error es =>
      have : loadBeanfile F (.ready src (.error es) : Server E) = .ok
          { pod := ready 2 src (.error es), error := some (.parser (.vec ((Server.parserReports es).map ofReport))) } := by
        unfold loadBeanfile
        rw [start_ready F ho]
        dsimp only
        simp only [stages]
        rw [bindAll, if_neg (by simp)]
        simp only [getPluginsAndOptions, plugins_error F ho (n := 1) (by omega), Data.truthy, Bool.false_eq_true, if_false]
        rw [bindAll_error rfl]
      rw [this]
      refine printError_ok F ho (parsed := .error es) (n := 2) ⟨Nat.le_refl _, rfl, .inr ⟨src, rfl⟩⟩ (by omega) _ _
        (ds := Server.parserReports es) ?_ ?_
      · rw [reportsOf, Data.elems, List.map_map]
        exact Wire.all_map _ _ _ fun r _ => decReport_toJson ho r
      · intro x hx
        rw [reportsOf, Data.elems] at hx
        obtain ⟨r, -, rfl⟩ := List.mem_map.1 hx
        have := depth_ofReport r
        omega
    | ok p =>
      obtain ⟨hopt, hd⟩ := hp src p rfl
      obtain ⟨m1, h1, hp1, he1, -⟩ := first_stages F ho hs src hopt hd
      have key : ∃ m, loadBeanfile F (.ready src (.ok p) : Server E) = .ok m ∧ PodOk (.ok p) 7 m.pod ∧
          (LateError m.error ∨ ∃ l, m.error = some (.plugins l)) := by
        unfold loadBeanfile
        rw [start_ready F ho]
        dsimp only
        rw [← List.take_append_drop 2 (stages F), bindAll_append, h1]
        dsimp only
        rcases he1 with he1 | ⟨l, he1⟩
        · obtain ⟨m, hm, h2, h3⟩ := late_stages F hreg hp1 he1
          rw [hm]
          exact ⟨m, rfl, h2, .inl h3⟩
        · rw [bindAll_error (by simp [he1])]
          exact ⟨m1, rfl, hp1.mono (by omega), .inr ⟨l, he1⟩⟩
      obtain ⟨m, hm, h2, h3⟩ := key
      rw [hm]
      exact print h2 (by omega) hm h3

namespace Clj

theorem answer_result_none {ord : List Data → List Data} {id : Option Id} {p : Payload} {j : Json}
    (h : Wire.encPayload E p = (str% "result", j)) (hx : decode ord (some (str% "result")) j = none) :
    answerOf ord (some (Wire.encResponse E { id := id, payload := p })) = none := by
  obtain ⟨i, hi⟩ := decode_id ord (some (str% "id")) E.f64 id
  have hd : decode ord none (Wire.encResponse E { id := id, payload := p }) = none := by
    unfold Wire.encResponse
    rw [h, decode_obj ord none (by simp)]
    simp only [Json.all, field_plain (k := str% "jsonrpc") (by decide), field_plain (k := str% "id") (by decide),
      field_plain (k := str% "result") (by decide), hx, decode_str]
    generalize decode ord (some (str% "id")) _ = a
    cases a <;> rfl
  simp only [answerOf, hd, Option.map_none]

/-- Booking what the server holds gives no reports with positions. -/
theorem book_none_indexed (F : Front E L) (ho : IsMapOrder F.ordm) {p : Parsed} {n : Nat} (hn : n < 2147483647) {pod : Pod E}
    (h : PodOk (.ok p) n pod) {pod' : Pod E} {r : Mapped} (hr : pod.book F none = (pod', some r)) : r.indexed = .nil := by
  obtain ⟨id, s, k, w⟩ := pod
  obtain ⟨h1, h2, h3⟩ := h
  simp only at h1 h2 h3
  subst h2
  unfold Pod.book at hr
  dsimp only at hr
  rcases h3 with rfl | ⟨src, rfl⟩
  · rw [invoke_dead F rfl rfl] at hr
    cases hr
    rfl
  · have hx := decMethod_plain (ordm := F.ordm) (m := str% "book") (id := id + 1) (x := .book none) (by simp)
    cases hh : Server.healthy E L (F.orders k) (some (.int ((id + 1 : Nat) : Int))) src (.ok p) (.book none) with
    | none =>
      rw [invoke_dies F ho (by omega) hx hh] at hr
      cases hr
      rfl
    | some x =>
      obtain ⟨src', resp⟩ := x
      rw [invoke_ready F ho (by omega) hx hh] at hr
      simp only [Server.healthy, Server.bookRequest, Option.getD_none, Option.isNone_none, if_true] at hh
      cases hb : book L (F.orders k) (Server.bookOptions p.options) p.directives with
      | panic => simp [hb] at hh
      | success ds w =>
        simp only [hb, Option.map_some, Option.some.injEq, Prod.mk.injEq] at hh
        obtain ⟨-, rfl⟩ := hh
        simp only [Prod.mk.injEq] at hr
        obtain ⟨-, hr⟩ := hr
        cases hd : decode F.ord (some (str% "result")) (.obj [(str% "directives", .arr (ds.map Wire.encBookedDirective))]) with
        | none =>
          rw [answer_result_none (p := .booked ds) rfl hd] at hr
          cases hr
        | some x =>
          rw [answer_result (p := .booked ds) rfl hd] at hr
          simp only [Option.map_some, Option.some.injEq] at hr
          subst hr
          rfl
      | failure es =>
        simp only [hb] at hh
        cases hrr : Server.resolveReports E p.directives es with
        | none => simp [hrr] at hh
        | some rs =>
          simp only [hrr, Option.map_some, Option.some.injEq, Prod.mk.injEq] at hh
          obtain ⟨-, rfl⟩ := hh
          simp only [Prod.mk.injEq] at hr
          obtain ⟨-, hr⟩ := hr
          rw [answer_reports] at hr
          cases hr
          rfl

end Clj

/-- None of the plugins of the ledger works on raw or on booked directives. -/
def Spec.NoPlugins (F : Front E L) (p : Parsed) : Prop :=
  ∀ q ∈ p.plugins, ∀ o, (F.resolve (ofPlugin q) o).1 = none ∧ (F.resolve (ofPlugin q) o).2.1 = none

namespace Clj

theorem stage_nothing (F : Front E L) (raw : Bool) {m : LoadedBeans E} (h : pluginsOfKind raw (m.plugins.getD []) = []) :
    runPluginsStage F raw m = .ok m := by
  unfold runPluginsStage
  dsimp only
  rw [h]
  rfl

/-- Without plugins, an error after reading the directives comes from booking, and has no reports. -/
theorem late_stages_plain (F : Front E L) (ho : IsMapOrder F.ordm) {p : Parsed} {n : Nat} (hn : n < 2147483647) {m m' : LoadedBeans E}
    (h : PodOk (.ok p) n m.pod) (he : m.error = none) (hx : m.rawXfDirectives = none)
    (hk : ∀ raw, pluginsOfKind raw (m.plugins.getD []) = []) (hm : bindAll m ((stages F).drop 2) = .ok m') {e : LoadError}
    (he' : m'.error = some e) : e = .booking (some []) ∨ e = .bookingException := by
  simp only [stages, List.drop_succ_cons, List.drop_zero] at hm
  rw [bindAll, if_neg (by simp [he]), stage_nothing F true (hk true)] at hm
  dsimp only at hm
  rw [bindAll, if_neg (by simp [he])] at hm
  simp only [bookRawDirectives, hx] at hm
  split at hm
  · cases hm
  · rename_i m2 hm2
    split at hm2
    · cases hm2
      rw [bindAll_error rfl] at hm
      cases hm
      cases he'
      exact .inr rfl
    · rename_i pod r hr
      split at hm2
      · cases hm2
        rw [bindAll, if_neg (by simp [he]), stage_nothing F false (by exact hk false)] at hm
        dsimp only at hm
        rw [bindAll, if_neg (by simp [he])] at hm
        simp only [setDirectives] at hm
        rw [bindAll, if_neg (by simp [he])] at hm
        simp only [setRegistry] at hm
        split at hm
        · cases hm
        · rename_i m3 hm3
          split at hm3
          · cases hm3
          · cases hm3
            cases hm
            rw [he] at he'
            cases he'
      · cases hm2
        rw [bindAll_error rfl] at hm
        cases hm
        cases he'
        rw [book_none_indexed F ho hn h hr]
        exact .inl rfl

end Clj

/-- In particular, loading ledgers without plugins is orderly, whatever errors they have. -/
theorem C50_without_plugins (F : Front E L) (ho : IsMapOrder F.ordm) (hs : IsOrder F.ord)
    (hreg : ∀ ds o, (F.registry ds o).isSome = true) {s : Server E}
    (hp : ∀ src p, s = .ready src (.ok p) → NoPlugins F p ∧ OptionsOk p.options ∧ ∀ d ∈ p.directives, DatesOk d) : Orderly F (some s) := by
  refine C50_orderly F ho hs hreg (fun src p h => (hp src p h).2) fun m e hm he => ?_
  unfold loadBeanfile at hm
  cases s with
  | unreadable msg =>
    rw [start_unreadable F ho] at hm
    cases hm
  | ready src parsed =>
    rw [start_ready F ho] at hm
    dsimp only at hm
    cases parsed with
    | error es =>
      simp only [stages] at hm
      rw [bindAll, if_neg (by simp)] at hm
      simp only [getPluginsAndOptions, plugins_error F ho (n := 1) (by omega), Data.truthy, Bool.false_eq_true, if_false] at hm
      rw [bindAll_error rfl] at hm
      cases hm
      cases he
      trivial
    | ok p =>
      obtain ⟨hnp, hopt, hd⟩ := hp src p rfl
      obtain ⟨m1, h1, hp1, he1, ⟨o, hpl⟩, hx⟩ := first_stages F ho hs src hopt hd
      rw [← List.take_append_drop 2 (stages F), bindAll_append, h1] at hm
      dsimp only at hm
      have hk : ∀ raw, pluginsOfKind raw (m1.plugins.getD []) = [] := by
        intro raw
        rw [hpl]
        unfold pluginsOfKind resolvedOf
        rw [Option.getD_some, List.filterMap_eq_nil_iff]
        intro r hr
        rw [List.map_map] at hr
        obtain ⟨q, hq, rfl⟩ := List.mem_map.1 hr
        cases raw
        · simp [resolvePlugin, (hnp q hq o).2]
        · simp [resolvePlugin, (hnp q hq o).1]
      split at hm
      · cases hm
      · rename_i m' hm'
        cases hm
        rcases he1 with he1 | ⟨l, he1⟩
        · rcases late_stages_plain F ho (by omega) hp1 he1 hx hk hm' he with rfl | rfl
          · exact ⟨[], rfl, by simp [NotTooDeep], [], rfl⟩
          · trivial
        · rw [bindAll_error (by simp [he1])] at hm'
          cases hm'
          rw [he1] at he
          cases he
          trivial

/-- Non-vacuity: three loads, of which the second fails to parse and the third fails in booking. -/
example : ((({} : Session).load Ex.front (some (Toy.server Ex.ledger))).load Ex.front (some Toy.broken)).load Ex.front
    (some (Toy.server Ex.unopened)) = { next := 3, current := some 2, live := [2] } := by decide +kernel

end Limabean
