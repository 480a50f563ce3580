/-
C99: plugins work one after the other, and what they make is refused exactly if it is not a directive.

The front end hands each directive through all plugins before it takes the next one, and checks only objects which it has not seen before.
The result is the same as if each plugin worked on the whole result of the one before, and everything was checked in between
(`C99_runs`). So loading stops with an exception exactly if a check fails or a plugin throws, with the errors of directives exactly if some carry errors at
the end, and else goes on (`C99_raw`, `C99_booked`).
-/
import Verif.Proofs.ChainLemmas
import Verif.Clj.TestPlugins
import Verif.Props.C56
import Verif.Props.C66
import Verif.Props.C98

namespace Limabean

open Spec Clj

variable {E : Ext} {L : BookLib}

namespace Spec

/-- The directives which a plugin or the user has marked with an error. -/
def marked (l : List Data) : List Data := l.filter isErr

/-- What the raw plugins make of the beanfile, each working on the checked result of the one before. -/
def rawResult (F : Front E L) (p : Parsed) (options : Data) : Option (List Data) :=
  (vetted (F.valid true) (p.directives.map fun d => ofDirective F.ord (withoutLostMeta d))).bind
    (throughVetted (F.valid true) none (rawPlugins F p options))

/-- What the booked plugins make of what was booked. -/
def bookedResult (F : Front E L) (p : Parsed) (options : Data) (bs : List Data) : Option (List Data) :=
  (vetted (F.valid false) bs).bind (throughVetted (F.valid false) (some (str% "booked")) (bookedPlugins F p options))

end Spec

/-- **C99**, one run: the plugins succeed exactly if each check succeeds, and the result is that of one after the other. -/
theorem C99_runs {hash : Nat → Nat} (hinj : Function.Injective hash) (valid : Data → Bool) (phase : Option Str) (ps : List Plugin) (ds : List Data) :
    (runPlugins hash valid phase ps ds.length (objects ds)).map (fun out => out.map Obj.data) =
      (vetted valid ds).bind (throughVetted valid phase ps) := by
  rw [runPlugins_vetted hinj ps (objects_tok ds) (objects_nodup ds), objects_data]

namespace Clj

theorem isErr_added {l zs : List Data} (h : List.Forall₂ SpansAdded l zs) : zs.map isErr = l.map isErr := by
  induction h with
  | nil => rfl
  | cons h _ ih => rw [List.map_cons, List.map_cons, ih, isErr, isErr, h.2 _ (by decide) (by decide)]

theorem marked_nil {l zs : List Data} (h : List.Forall₂ SpansAdded l zs) : (marked zs).isEmpty = (marked l).isEmpty := by
  have e : ∀ l : List Data, (marked l).isEmpty = !(l.map isErr).any id := by
    intro l
    induction l with
    | nil => rfl
    | cons d l ih =>
      unfold marked at ih ⊢
      rw [List.filter_cons, List.map_cons, List.any_cons]
      cases hd : isErr d <;> simp [ih]
  rw [e, e, isErr_added h]

/-- The stage of plugins, however it ends. -/
theorem stage_outcome (F : Front E L) (hinj : Function.Injective F.hash) (ho : IsMapOrder F.ordm) (raw : Bool) {n k : Nat}
    (hn : n < 2147483647) {src : E.Sources} {parsed : Except (List ParserError) Parsed} {m : LoadedBeans E}
    (hm : m.pod = { nextId := n, server := some (.ready src parsed), served := k })
    (hp : pluginsOfKind raw (m.plugins.getD []) ≠ []) :
    match (vetted (F.valid raw) ((if raw then m.rawDirectives else m.bookedDirectives).getD [])).bind
        (throughVetted (F.valid raw) (if raw then none else some (str% "booked")) (pluginsOfKind raw (m.plugins.getD []))) with
    | none => runPluginsStage F raw m = .ok { m with error := some (.pluginException raw) }
    | some l => ∃ n' k' src' zs, n' ≤ n + 1 ∧ List.Forall₂ SpansAdded l zs ∧ runPluginsStage F raw m = .ok { m with
        pod := { nextId := n', server := some (.ready src' parsed), served := k' }
        rawXfDirectives := if raw then some zs else m.rawXfDirectives
        bookedXfDirectives := if raw then m.bookedXfDirectives else some zs
        error := if (marked l).isEmpty then m.error else some (.dctErrors raw (marked zs)) } := by
  have hrun := C99_runs hinj (F.valid raw) (if raw then none else some (str% "booked")) (pluginsOfKind raw (m.plugins.getD []))
    ((if raw then m.rawDirectives else m.bookedDirectives).getD [])
  rw [← hrun]
  have hne : (pluginsOfKind raw (m.plugins.getD [])).isEmpty = false := by
    rw [Bool.eq_false_iff, ne_eq, List.isEmpty_iff]
    exact hp
  simp only [runPluginsStage, transformed, hne, Bool.false_eq_true, if_false]
  cases hr : runPlugins F.hash (F.valid raw) (if raw then none else some (str% "booked")) (pluginsOfKind raw (m.plugins.getD []))
      ((if raw then m.rawDirectives else m.bookedDirectives).getD []).length
      (objects ((if raw then m.rawDirectives else m.bookedDirectives).getD [])) with
  | none => rfl
  | some out =>
    simp only [Option.map_some]
    generalize out.map Obj.data = l
    have hcs : ∀ rs, m.pod.createSpans F rs =
        ({ nextId := n + 1, server := some (.ready (Server.createSpans src rs).1 parsed), served := k + 1 },
          some ((Server.createSpans src rs).2.map ofSpan)) := fun rs => by
      rw [hm]
      exact createSpans_ok F ho hn src parsed rs
    unfold mergeWithPod
    simp only [hcs]
    obtain ⟨zs, hg⟩ : ∃ zs, mergeWithProvenance F.texts F.txt (fun reqs => some ((Server.createSpans src reqs).2.map ofSpan)) l = some zs := by
      unfold mergeWithProvenance createWithProvenance
      split
      · exact ⟨_, rfl⟩
      · exact ⟨_, rfl⟩
    have hadd := merge_added hg
    rw [hg]
    dsimp only
    have hmk : (marked l).isEmpty = (zs.filter fun d => (d.get (str% "err")).truthy).isEmpty := (marked_nil hadd).symm
    rw [hmk]
    by_cases hq : (spanRequests F.texts F.txt l).isEmpty = true
    · exact ⟨n, k, src, zs, by omega, hadd, by rw [if_pos hq, hm]; rfl⟩
    · exact ⟨n + 1, k + 1, (Server.createSpans src (spanRequests F.texts F.txt l)).1, zs, by omega, hadd, by rw [if_neg hq]; rfl⟩

/-- Loading up to the raw plugins, if all plugins are found. -/
theorem load_found (F : Front E L) (ho : IsMapOrder F.ordm) (hs : IsOrder F.ord) (src : E.Sources) {p : Parsed} (hp : OptionsOk p.options)
    (hd : ∀ d ∈ p.directives, DatesOk d) (hr : ∀ o, ∀ q ∈ p.plugins, (F.resolve (ofPlugin q) o).2.2 = none) :
    ∃ o, decode F.ord (some (str% "result")) (Wire.encOptions p.options) = some o ∧
      loadBeanfile F (.ready src (.ok p)) = match bindAll (afterRaw F src p o none) ((stages F).drop 2) with
        | .error pod => .error (some pod)
        | .ok m => .ok m := by
  obtain ⟨o, hx, h⟩ := prepared F ho hs src hp hd fun o r hr' => by
    simp only [resolvedOf, List.mem_map] at hr'
    obtain ⟨x, ⟨q, hq', rfl⟩, rfl⟩ := hr'
    exact hr o q hq'
  refine ⟨o, hx, ?_⟩
  unfold loadBeanfile
  rw [start_ready F ho]
  dsimp only
  rw [← List.take_append_drop 2 (stages F), bindAll_append, h]
  rfl

/-- The error is not about raw plugins. -/
def NotRaw : Option LoadError → Prop
  | some (.pluginException raw) => raw = false
  | some (.dctErrors raw _) => raw = false
  | _ => True

theorem bookStage_total (F : Front E L) (m : LoadedBeans E) (hm : m.error = none) : ∃ m', bookRawDirectives F m = .ok m' ∧ m'.plugins = m.plugins ∧
    m'.rawXfDirectives = m.rawXfDirectives ∧ m'.bookedXfDirectives = m.bookedXfDirectives ∧ m'.options = m.options ∧ m'.directives = m.directives ∧
    (m'.error = none ∨ (m'.bookedDirectives = m.bookedDirectives ∧ m'.error.isSome ∧ NotRaw m'.error)) := by
  unfold bookRawDirectives
  dsimp only
  cases m.pod.book F m.rawXfDirectives with
  | mk pod r =>
    cases r with
    | none => exact ⟨_, rfl, rfl, rfl, rfl, rfl, rfl, .inr ⟨rfl, rfl, trivial⟩⟩
    | some r =>
      dsimp only
      split
      · exact ⟨_, rfl, rfl, rfl, rfl, rfl, rfl, .inl hm⟩
      · exact ⟨_, rfl, rfl, rfl, rfl, rfl, rfl, .inr ⟨rfl, rfl, trivial⟩⟩

theorem bookedStage_keeps (F : Front E L) (m m' : LoadedBeans E) (h : runPluginsStage F false m = .ok m') (hm : m.error = none) :
    m'.rawXfDirectives = m.rawXfDirectives ∧ m'.options = m.options ∧ NotRaw m'.error := by
  unfold runPluginsStage at h
  dsimp only at h
  split at h
  · cases h
    exact ⟨rfl, rfl, by rw [hm]; trivial⟩
  · split at h
    · cases h
      exact ⟨rfl, rfl, rfl⟩
    · cases h
      refine ⟨rfl, rfl, ?_⟩
      dsimp only
      split
      · rw [hm]; trivial
      · exact rfl

theorem rest_keeps (F : Front E L) {m m' : LoadedBeans E} (hm : m.error = none) (h : bindAll m ((stages F).drop 3) = .ok m') :
    m'.rawXfDirectives = m.rawXfDirectives ∧ m'.options = m.options ∧ NotRaw m'.error := by
  simp only [stages, List.drop_succ_cons, List.drop_zero] at h
  obtain ⟨m1, h1, -, h2, -, h4, -, h3⟩ := bookStage_total F m hm
  rw [bindAll, if_neg (by simp [hm]), h1] at h
  dsimp only at h
  rcases h3 with h3 | ⟨-, h3, h5⟩
  · rw [bindAll, if_neg (by simp [h3])] at h
    cases h6 : runPluginsStage F false m1 with
    | error pod => rw [h6] at h; cases h
    | ok m2 =>
      rw [h6] at h
      dsimp only at h
      obtain ⟨g1, g2, g3⟩ := bookedStage_keeps F m1 m2 h6 h3
      cases he : m2.error with
      | some e =>
        rw [bindAll_error (by simp [he])] at h
        cases h
        exact ⟨g1.trans h2, g2.trans h4, g3⟩
      | none =>
        rw [bindAll, if_neg (by simp [he])] at h
        simp only [setDirectives] at h
        rw [bindAll, if_neg (by simp [he])] at h
        unfold setRegistry at h
        split at h
        · cases h
        · rename_i m3 h7
          split at h7
          · cases h7
          · cases h7
            cases h
            exact ⟨g1.trans h2, g2.trans h4, by simp only [he]; trivial⟩
  · rw [bindAll_error h3] at h
    cases h
    exact ⟨h2, h4, h5⟩

end Clj

namespace Clj

/-- The server for this beanfile runs, and has not answered many requests. -/
def Serving (p : Parsed) (pod : Pod E) : Prop := ∃ n k src, n ≤ 6 ∧ pod = { nextId := n, server := some (.ready src (.ok p)), served := k }

/-- Loading up to the end of the raw plugins. -/
theorem raw_outcome (F : Front E L) (hinj : Function.Injective F.hash) (ho : IsMapOrder F.ordm) (hs : IsOrder F.ord) (src : E.Sources) {p : Parsed}
    (hp : OptionsOk p.options) (hd : ∀ d ∈ p.directives, DatesOk d) (hr : ∀ o, ∀ q ∈ p.plugins, (F.resolve (ofPlugin q) o).2.2 = none) :
    ∃ o, decode F.ord (some (str% "result")) (Wire.encOptions p.options) = some o ∧ (rawPlugins F p o ≠ [] →
      match rawResult F p o with
      | none => ∃ m, loadBeanfile F (.ready src (.ok p)) = .ok m ∧ m.error = some (.pluginException true) ∧ m.rawXfDirectives = none ∧
          m.bookedDirectives = none ∧ m.directives = none ∧ Serving p m.pod
      | some l => ∃ zs, List.Forall₂ SpansAdded l zs ∧
          if marked l = [] then ∀ m, loadBeanfile F (.ready src (.ok p)) = .ok m → m.rawXfDirectives = some zs ∧ NotRaw m.error
          else ∃ m, loadBeanfile F (.ready src (.ok p)) = .ok m ∧ m.error = some (.dctErrors true (marked zs)) ∧ m.rawXfDirectives = some zs ∧
            m.bookedDirectives = none ∧ m.directives = none) := by
  obtain ⟨o, hx, hl⟩ := load_found F ho hs src hp hd hr
  refine ⟨o, hx, fun hne => ?_⟩
  have hst := stage_outcome F hinj ho true (n := 4) (k := 4) (by omega) (src := src) (parsed := .ok p) (m := afterRaw F src p o none) rfl (by
    simp only [afterRaw, Option.getD_some, pluginsOfKind_raw]
    exact hne)
  simp only [afterRaw, Option.getD_some, pluginsOfKind_raw, if_true] at hst
  rw [hl]
  unfold rawResult
  cases hres : (vetted (F.valid true) (p.directives.map fun d => ofDirective F.ord (withoutLostMeta d))).bind
    (throughVetted (F.valid true) none (rawPlugins F p o)) with
  | none =>
    rw [hres] at hst
    dsimp only at hst ⊢
    refine ⟨{ afterRaw F src p o none with error := some (.pluginException true) }, ?_, rfl, rfl, rfl, rfl, 4, 4, src, by omega, rfl⟩
    simp only [stages, List.drop_succ_cons, List.drop_zero]
    rw [bindAll, if_neg (by simp [afterRaw])]
    simp only [afterRaw]
    rw [hst]
    dsimp only
    rw [bindAll_error (by simp)]
  | some l =>
    rw [hres] at hst
    dsimp only at hst ⊢
    obtain ⟨n', k', src', zs, hn', hadd, hst⟩ := hst
    refine ⟨zs, hadd, ?_⟩
    have hb : ∀ rest, bindAll (afterRaw F src p o none) (runPluginsStage F true :: rest) = bindAll
        { afterRaw F src p o none with
          pod := { nextId := n', server := some (.ready src' (.ok p)), served := k' }, rawXfDirectives := some zs
          error := if (marked l).isEmpty then none else some (.dctErrors true (marked zs)) } rest := by
      intro rest
      rw [bindAll, if_neg (by simp [afterRaw])]
      simp only [afterRaw]
      rw [hst]
    simp only [stages, List.drop_succ_cons, List.drop_zero, hb]
    split
    · rename_i hmk
      intro m hm
      simp only [hmk, List.isEmpty_nil, if_true] at hm
      split at hm
      · cases hm
      · rename_i m' hm'
        cases hm
        obtain ⟨g1, -, g3⟩ := rest_keeps F (m := { afterRaw F src p o none with
          pod := { nextId := n', server := some (.ready src' (.ok p)), served := k' }, rawXfDirectives := some zs, error := none }) rfl hm'
        exact ⟨g1, g3⟩
    · rename_i hmk
      have hmk' : (marked l).isEmpty = false := by rwa [Bool.eq_false_iff, ne_eq, List.isEmpty_iff]
      rw [bindAll_error (by simp [hmk'])]
      exact ⟨_, rfl, by simp [hmk'], rfl, rfl, rfl⟩

/-- Loading up to the end of the booked plugins. -/
theorem booked_outcome (F : Front E L) (hinj : Function.Injective F.hash) (ho : IsMapOrder F.ordm) (hs : IsOrder F.ord) (hL : DatesExist L) (src : E.Sources)
    {p : Parsed} (hp : OptionsOk p.options) (hd : ∀ d ∈ p.directives, DatesOk d) (hr : ∀ o, ∀ q ∈ p.plugins, (F.resolve (ofPlugin q) o).2.2 = none)
    {m : LoadedBeans E} (h : loadBeanfile F (.ready src (.ok p)) = .ok m) {bs : List Data} (hb : m.bookedDirectives = some bs)
    (hne : bookedPlugins F p m.options ≠ []) :
    match bookedResult F p m.options bs with
    | none => m.error = some (.pluginException false) ∧ m.directives = none ∧ Serving p m.pod
    | some l => ∃ zs, List.Forall₂ SpansAdded l zs ∧
        if marked l = [] then m.error = none ∧ m.directives = some zs
        else m.error = some (.dctErrors false (marked zs)) ∧ m.directives = none := by
  obtain ⟨o, -, hl⟩ := load_found F ho hs src hp hd hr
  rw [hl] at h
  simp only [stages, List.drop_succ_cons, List.drop_zero] at h
  -- the raw plugins
  obtain ⟨m3, n3, k3, src3, h3, e3, hn3, hm3, q3, d3, x3, o3, b3⟩ : ∃ m3 n3 k3 src3,
      (match bindAll m3 [bookRawDirectives F, runPluginsStage F false, setDirectives, setRegistry F] with
        | .error pod => .error (some pod)
        | .ok m => .ok m) = Except.ok (ε := Option (Pod E)) m ∧ m3.error = none ∧ n3 ≤ 5 ∧
      m3.pod = { nextId := n3, server := some (.ready src3 (.ok p)), served := k3 } ∧ m3.plugins = some (resolvedOf F p o) ∧ m3.directives = none ∧
      m3.bookedXfDirectives = none ∧ m3.options = o ∧ m3.bookedDirectives = none := by
    by_cases hraw : pluginsOfKind true (resolvedOf F p o) = []
    · refine ⟨afterRaw F src p o none, 4, 4, src, ?_, rfl, by omega, rfl, rfl, rfl, rfl, rfl, rfl⟩
      rw [bindAll, if_neg (by simp [afterRaw])] at h
      have e : runPluginsStage F true (afterRaw F src p o none) = .ok (afterRaw F src p o none) := by
        simp only [runPluginsStage, afterRaw, Option.getD_some, hraw, List.isEmpty_nil, if_true]
      rw [e] at h
      exact h
    · have hst := stage_outcome F hinj ho true (n := 4) (k := 4) (by omega) (src := src) (parsed := .ok p) (m := afterRaw F src p o none) rfl hraw
      simp only [afterRaw, Option.getD_some, if_true] at hst
      rw [bindAll, if_neg (by simp [afterRaw])] at h
      cases hres : (vetted (F.valid true) (p.directives.map fun d => ofDirective F.ord (withoutLostMeta d))).bind
          (throughVetted (F.valid true) none (pluginsOfKind true (resolvedOf F p o))) with
      | none =>
        rw [hres] at hst
        simp only [afterRaw] at h
        dsimp only at hst
        rw [hst] at h
        dsimp only at h
        rw [bindAll_error (by simp)] at h
        cases h
        cases hb
      | some l =>
        rw [hres] at hst
        dsimp only at hst
        obtain ⟨n', k', src', zs, hn', -, hst⟩ := hst
        simp only [afterRaw] at h
        rw [hst] at h
        dsimp only at h
        by_cases hmk : (marked l).isEmpty = true
        · rw [if_pos hmk] at h
          exact ⟨_, n', k', src', h, rfl, by omega, rfl, rfl, rfl, rfl, rfl, rfl⟩
        · rw [if_neg hmk, bindAll_error (by simp)] at h
          cases h
          cases hb
  -- booking
  obtain ⟨m4, h4, p4, -, x4, o4, d4, e4⟩ := bookStage_total F m3 e3
  rw [bindAll, if_neg (by simp [e3]), h4] at h3
  dsimp only at h3
  have e4 : m4.error = none := by
    rcases e4 with e4 | ⟨e4, e5, -⟩
    · exact e4
    · rw [bindAll_error e5] at h3
      cases h3
      rw [e4, b3] at hb
      cases hb
  obtain ⟨ds, out, w, bs', -, -, -, hm4⟩ := book_stage F ho hs hL (by omega) hd hm3 h4 e4
  -- the booked plugins
  have q4 : m4.plugins.getD [] = resolvedOf F p o := by rw [p4, q3]; rfl
  have b4 : m4.bookedDirectives = some bs' := by rw [hm4]
  have hopt : m.options = o := by
    have := (rest_keeps F (m := m3) (m' := m) e3 (by
      simp only [stages, List.drop_succ_cons, List.drop_zero]
      rw [bindAll, if_neg (by simp [e3]), h4]
      dsimp only
      split at h3
      · cases h3
      · rename_i m' hm'
        cases h3
        exact hm')).2.1
    rw [this, o3]
  rw [hopt] at hne ⊢
  have hst := stage_outcome F hinj ho false (n := n3 + 1) (k := k3 + 1) (by omega) (src := src3) (parsed := .ok p) (m := m4) (by rw [hm4]) (by
    rw [q4, pluginsOfKind_booked]
    exact hne)
  rw [q4, pluginsOfKind_booked] at hst
  simp only [b4, Bool.false_eq_true, if_false, Option.getD_some] at hst
  rw [bindAll, if_neg (by simp [e4])] at h3
  unfold bookedResult
  cases hres : (vetted (F.valid false) bs').bind (throughVetted (F.valid false) (some (str% "booked")) (bookedPlugins F p o)) with
  | none =>
    rw [hres] at hst
    dsimp only at hst
    rw [hst] at h3
    dsimp only at h3
    rw [bindAll_error (by simp)] at h3
    cases h3
    have : bs = bs' := (Option.some.inj hb).symm
    subst this
    rw [hres]
    exact ⟨rfl, d4.trans d3, n3 + 1, k3 + 1, src3, by omega, by rw [hm4]⟩
  | some l =>
    rw [hres] at hst
    dsimp only at hst
    obtain ⟨n', k', src', zs, hn', hadd, hst⟩ := hst
    rw [hst] at h3
    dsimp only at h3
    by_cases hmk : (marked l).isEmpty = true
    · rw [if_pos hmk, e4, bindAll, if_neg (by simp)] at h3
      simp only [setDirectives] at h3
      rw [bindAll, if_neg (by simp)] at h3
      have hmk' : marked l = [] := List.isEmpty_iff.1 hmk
      unfold setRegistry at h3
      split at h3
      · cases h3
      · rename_i m' hm'
        split at hm'
        · cases hm'
        · rename_i m7 hm7
          split at hm7
          · cases hm7
          · cases hm7
            cases hm'
            cases h3
            have : bs = bs' := (Option.some.inj hb).symm
            subst this
            rw [hres]
            refine ⟨zs, hadd, ?_⟩
            rw [if_pos hmk']
            exact ⟨rfl, rfl⟩
    · rw [if_neg hmk, bindAll_error (by simp)] at h3
      cases h3
      have : bs = bs' := (Option.some.inj hb).symm
      subst this
      rw [hres]
      refine ⟨zs, hadd, ?_⟩
      rw [if_neg (fun h => hmk (List.isEmpty_iff.2 h))]
      exact ⟨rfl, d4.trans d3⟩

end Clj

/-- **C99** for raw plugins: if all plugins are found, and there are some for raw directives, then loading stops with an exception exactly if
a check fails or a plugin throws; with the errors of directives, which are exactly those marked at the end, if there are such; and else it goes on with
the result of the plugins. -/
theorem C99_raw (F : Front E L) (hinj : Function.Injective F.hash) (ho : IsMapOrder F.ordm) (hs : IsOrder F.ord) (src : E.Sources) {p : Parsed}
    (hp : OptionsOk p.options) (hd : ∀ d ∈ p.directives, DatesOk d) (hr : ∀ o, ∀ q ∈ p.plugins, (F.resolve (ofPlugin q) o).2.2 = none) :
    ∃ o, decode F.ord (some (str% "result")) (Wire.encOptions p.options) = some o ∧ (rawPlugins F p o ≠ [] →
      match rawResult F p o with
      | none => ∃ m, loadBeanfile F (.ready src (.ok p)) = .ok m ∧ m.error = some (.pluginException true) ∧ m.rawXfDirectives = none ∧
          m.bookedDirectives = none ∧ m.directives = none
      | some l => ∃ zs, List.Forall₂ SpansAdded l zs ∧
          if marked l = [] then ∀ m, loadBeanfile F (.ready src (.ok p)) = .ok m → m.rawXfDirectives = some zs ∧ NotRaw m.error
          else ∃ m, loadBeanfile F (.ready src (.ok p)) = .ok m ∧ m.error = some (.dctErrors true (marked zs)) ∧ m.rawXfDirectives = some zs ∧
            m.bookedDirectives = none ∧ m.directives = none) := by
  obtain ⟨o, hx, h⟩ := raw_outcome F hinj ho hs src hp hd hr
  refine ⟨o, hx, fun hne => ?_⟩
  have h := h hne
  cases hres : rawResult F p o with
  | none =>
    rw [hres] at h
    obtain ⟨m, h1, h2, h3, h4, h5, -⟩ := h
    exact ⟨m, h1, h2, h3, h4, h5⟩
  | some l => rwa [hres] at h

/-- **C99** for booked plugins: if all plugins are found, booking has succeeded, and there are plugins for booked directives, then loading
stops with an exception exactly if a check fails or a plugin throws; with the errors of directives, which are exactly those marked at the end, if there are such; and
else it ends with the result of the plugins. -/
theorem C99_booked (F : Front E L) (hinj : Function.Injective F.hash) (ho : IsMapOrder F.ordm) (hs : IsOrder F.ord) (hL : DatesExist L) (src : E.Sources)
    {p : Parsed} (hp : OptionsOk p.options) (hd : ∀ d ∈ p.directives, DatesOk d) (hr : ∀ o, ∀ q ∈ p.plugins, (F.resolve (ofPlugin q) o).2.2 = none)
    {m : LoadedBeans E} (h : loadBeanfile F (.ready src (.ok p)) = .ok m) {bs : List Data} (hb : m.bookedDirectives = some bs)
    (hne : bookedPlugins F p m.options ≠ []) :
    match bookedResult F p m.options bs with
    | none => m.error = some (.pluginException false) ∧ m.directives = none
    | some l => ∃ zs, List.Forall₂ SpansAdded l zs ∧
        if marked l = [] then m.error = none ∧ m.directives = some zs
        else m.error = some (.dctErrors false (marked zs)) ∧ m.directives = none := by
  have h' := booked_outcome F hinj ho hs hL src hp hd hr h hb hne
  cases hres : bookedResult F p m.options bs with
  | none =>
    rw [hres] at h'
    exact ⟨h'.1, h'.2.1⟩
  | some l => rwa [hres] at h'

namespace Clj

theorem provenance_ofDirective (ord : List Data → List Data) (d : Raw.Directive) : (ofDirective ord d).get (str% "provenance") = .nil := by
  unfold ofDirective
  cases d.variant <;> simp [Data.get, ofVariant, get_append, get_optEntry, AMap.get]

theorem err_ofDirective (ord : List Data → List Data) (d : Raw.Directive) : (ofDirective ord d).get (str% "err") = .nil := by
  unfold ofDirective
  cases d.variant <;> simp [Data.get, ofVariant, get_append, get_optEntry, AMap.get]

theorem spanP_ofDirective (ord : List Data → List Data) (d : Raw.Directive) : (ofDirective ord d).get (str% "span-p") = .nil := by
  unfold ofDirective
  cases d.variant <;> simp [Data.get, ofVariant, get_append, get_optEntry, AMap.get]

theorem get_dctError (ord : List Data → List Data) (d : Raw.Directive) (message ns k : Str) :
    (dctError message ns (ofDirective ord d)).get k = if k = str% "err" then .vec [complaint message ns] else (ofDirective ord d).get k := by
  rw [dctError, err_ofDirective, get_assoc (by exact trivial)]
  rfl

theorem isErr_dctError (ord : List Data → List Data) (d : Raw.Directive) (message ns : Str) :
    isErr (dctError message ns (ofDirective ord d)) = true := by
  rw [isErr, get_dctError]
  rfl

theorem reject_steps (hit : Data → Bool) (message : Str) (tag : Data → Option Data) (ord : List Data → List Data) (ds : List Raw.Directive)
    (pre : List Data) : steps (rejectPlugin hit message) tag pre (ds.map (ofDirective ord)) = some ((ds.map (ofDirective ord)).map fun x =>
      if hit x then dctError message (str% "limabean.test.plugins.fail") x else x) := by
  induction ds generalizing pre with
  | nil => rfl
  | cons d ds ih =>
    simp only [List.map_cons, steps, ih, Option.bind_eq_bind, Option.bind_some]
    have hstep : (rejectPlugin hit message).step (pre ++ [ofDirective ord d]) =
        if hit (ofDirective ord d) then [.new (dctError message (str% "limabean.test.plugins.fail") (ofDirective ord d))] else [.old pre.length] := by
      simp [rejectPlugin]
    rw [hstep]
    by_cases hh : hit (ofDirective ord d) = true
    · rw [if_pos hh, if_pos hh]
      simp only [Json.all, passOn, isErr_dctError, if_true]
      rfl
    · rw [if_neg hh, if_neg hh]
      simp [Json.all, passOn]

theorem reject_through (hit : Data → Bool) (message : Str) (tag : Data → Option Data) (ord : List Data → List Data) (ds : List Raw.Directive) :
    through (rejectPlugin hit message) tag (ds.map (ofDirective ord)) = some ((ds.map (ofDirective ord)).map fun x =>
      if hit x then dctError message (str% "limabean.test.plugins.fail") x else x) := by
  unfold through
  rw [reject_steps]
  simp [rejectPlugin, Json.all]

theorem marked_rejected (hit : Data → Bool) (message ns : Str) (ord : List Data → List Data) (ds : List Raw.Directive) :
    marked ((ds.map (ofDirective ord)).map fun x => if hit x then dctError message ns x else x) =
      (ds.filter fun d => hit (ofDirective ord d)).map fun d => dctError message ns (ofDirective ord d) := by
  induction ds with
  | nil => rfl
  | cons d ds ih =>
    unfold marked at ih ⊢
    simp only [List.map_cons, List.filter_cons]
    by_cases hh : hit (ofDirective ord d) = true
    · simp only [hh, if_true, isErr_dctError, List.map_cons, ih]
    · rw [if_neg hh, if_neg (by rw [isErr_ofDirective]; exact Bool.false_ne_true), if_neg hh, ih]

theorem spansAdded_same {l zs : List Data} (h : List.Forall₂ SpansAdded l zs) (hl : ∀ x ∈ l, (x.get (str% "provenance")).truthy = false) :
    zs = l := by
  induction h with
  | nil => rfl
  | cons h _ ih => rw [h.1 (hl _ (by simp)), ih fun x hx => hl x (by simp [hx])]

end Clj

/-- C99 for the plugin `fail`, which marks the directives it matches with an error: if there are some, loading ends with exactly these
directives; they are as read from the beanfile, but for the error. -/
theorem C99_rejects (F : Front E L) (hinj : Function.Injective F.hash) (ho : IsMapOrder F.ordm) (hs : IsOrder F.ord) (hv : F.valid = validDct)
    (src : E.Sources) {p : Parsed} (hp : OptionsOk p.options) (hd : ∀ d ∈ p.directives, DatesOk d ∧ NumbersFit (withoutLostMeta d))
    {name message : Str} {hit : Data → Bool} (hq : UsesRaw F p name (rejectPlugin hit message))
    (hits : List Raw.Directive) (hh : hits = (p.directives.map withoutLostMeta).filter fun d => hit (ofDirective F.ord d)) (hne : hits ≠ []) :
    ∃ m, loadBeanfile F (.ready src (.ok p)) = .ok m ∧
      m.error = some (.dctErrors true (hits.map fun d => dctError message (str% "limabean.test.plugins.fail") (ofDirective F.ord d))) ∧
      m.bookedDirectives = none ∧ m.directives = none := by
  obtain ⟨o, -, h⟩ := C99_raw F hinj ho hs src hp (fun d h => (hd d h).1) fun o => ((usesRaw_all hq).2 o).1
  have hu := (usesRaw_all hq).2 o
  have hmap : (p.directives.map fun d => ofDirective F.ord (withoutLostMeta d)) = (p.directives.map withoutLostMeta).map (ofDirective F.ord) := by
    rw [List.map_map]
    rfl
  have hvalid : ∀ x ∈ (p.directives.map withoutLostMeta).map (ofDirective F.ord), validDct true x = true := by
    intro x hx
    rw [← hmap] at hx
    obtain ⟨d, hd', rfl⟩ := List.mem_map.1 hx
    exact (valid_raw hs _).2 (hd d hd').2
  have hres : rawResult F p o = some (((p.directives.map withoutLostMeta).map (ofDirective F.ord)).map fun x =>
      if hit x then dctError message (str% "limabean.test.plugins.fail") x else x) := by
    unfold rawResult
    rw [hu.2.1, hmap, hv, vetted_all hvalid, Option.bind_some]
    simp only [throughVetted]
    rw [through_name, reject_through, Option.bind_some]
    have : vetted (validDct true) (((p.directives.map withoutLostMeta).map (ofDirective F.ord)).map fun x =>
        if hit x then dctError message (str% "limabean.test.plugins.fail") x else x) =
        some (((p.directives.map withoutLostMeta).map (ofDirective F.ord)).map fun x =>
          if hit x then dctError message (str% "limabean.test.plugins.fail") x else x) := by
      unfold vetted
      rw [if_pos]
      rw [List.all_eq_true]
      intro x hx
      obtain ⟨y, hy, rfl⟩ := List.mem_map.1 hx
      split
      · obtain ⟨d, -, rfl⟩ := List.mem_map.1 hy
        rw [isErr_dctError, Bool.true_or]
      · rw [hvalid y hy, Bool.or_true]
    rw [this]
    rfl
  have h := h (by rw [hu.2.1]; simp)
  rw [hres] at h
  dsimp only at h
  obtain ⟨zs, hadd, h⟩ := h
  have hz := spansAdded_same hadd (by
    intro x hx
    obtain ⟨y, hy, rfl⟩ := List.mem_map.1 hx
    obtain ⟨d, -, rfl⟩ := List.mem_map.1 hy
    split
    · rw [get_dctError, if_neg (by decide), provenance_ofDirective]
      rfl
    · rw [provenance_ofDirective]
      rfl)
  subst hz
  have hm := marked_rejected hit message (str% "limabean.test.plugins.fail") F.ord (p.directives.map withoutLostMeta)
  rw [hm, ← hh, if_neg (by simpa using hne)] at h
  obtain ⟨m, g1, g2, -, g4, g5⟩ := h
  exact ⟨m, g1, g2, g4, g5⟩

/-- Such an error is told with the message, the plugin, and the place of the directive (see `C56_partial` for what the user sees). -/
theorem C99_told (ord : List Data → List Data) {d : Raw.Directive} {s : Span} (hs : d.span = some s) (message : Str) :
    Complains (dctError message (str% "limabean.test.plugins.fail") (ofDirective ord d))
      ([{ message := message, plugin := str% "limabean.test.plugins.fail" }], s) := by
  refine ⟨?_, .inr ⟨?_, ?_⟩⟩
  · rw [get_dctError]
    rfl
  · rw [get_dctError, if_neg (by decide), spanP_ofDirective]
  · rw [get_dctError, if_neg (by decide)]
    simp [ofDirective, Data.get, hs, optEntry, AMap.get]

namespace Ex

/-- A front end which finds two plugins: one sets the narration, the other rejects transactions with this narration. -/
def pairFront (n : Str) : Front Toy.ext Toy.lib :=
  let find : Data → Option Plugin := fun q =>
    if textOf (q.get (str% "name")) == (str% "first") then some (narrationPlugin (str% "Lunch"))
    else some (rejectPlugin (fun d => textOf (d.get (str% "narration")) == n) (str% "no such thing"))
  { strictFront with resolve := fun q _ => (find q, none, none) }

/-- A ledger which uses both. -/
def pairServer : Server Toy.ext :=
  .ready [] (.ok { directives := openedLunch, options := Toy.options, plugins := [(str% "first", none), (str% "second", none)] })

/-- A plugin which replaces every transaction by a map without entries. -/
def sloppy : Plugin where
  name := []
  step l := match l.getLast? with
    | none => []
    | some d => if isKw (d.get (str% "dct")) (str% "txn") then [.new (.map [])] else [.old (l.length - 1)]
  finish _ := []

/-- A front end which finds this plugin, for booked directives. -/
def bookedFront (pl : Plugin) : Front Toy.ext Toy.lib := { strictFront with resolve := fun _ _ => (none, some pl, none) }

/-- The phase of plugins in which loading failed, and the messages on directives; `none` if all is well or there was an exception. -/
def rejected (F : Front Toy.ext Toy.lib) (s : Server Toy.ext) : Option (Bool × List Str) := match loadBeanfile F s with
  | .ok m => match m.error with
    | some (.dctErrors raw ds) => some (raw, ds.flatMap fun d => (d.get (str% "err")).elems.map fun e => textOf (e.get (str% "message")))
    | _ => none
  | .error _ => none

/-- The phase of plugins in which there was an exception. -/
def threw (F : Front Toy.ext Toy.lib) (s : Server Toy.ext) : Option Bool := match loadBeanfile F s with
  | .ok m => match m.error with
    | some (.pluginException raw) => some raw
    | _ => none
  | .error _ => none

end Ex

/-- Cases of all ends of `C99_raw`, `C99_booked` and `C99_rejects`. The second plugin sees what the first one has made, and rejects it or not.
A plugin which makes something else than directives leads to an exception, in its phase. Booked directives are rejected too. -/
example : Ex.rejected (Ex.pairFront (str% "Lunch")) Ex.pairServer = some (true, [str% "no such thing"]) ∧
    Ex.rejected (Ex.pairFront (str% "Dinner")) Ex.pairServer = none ∧
    Ex.loadedTexts (Ex.pairFront (str% "Dinner")) Ex.pairServer =
      some [(str% "open", [], []), (str% "open", [], []), (str% "txn", str% "Lunch", [str% "first"])] ∧
    Ex.threw (Ex.pluginFront Ex.sloppy) (Ex.withPlugin Ex.openedLunch) = some true ∧
    Ex.threw (Ex.bookedFront Ex.sloppy) (Ex.withPlugin Ex.openedLunch) = some false ∧
    Ex.rejected (Ex.bookedFront (rejectPlugin (fun d => isKw (d.get (str% "dct")) (str% "open")) (str% "closed shop")))
      (Ex.withPlugin Ex.openedLunch) = some (false, [str% "closed shop", str% "closed shop"]) ∧
    Ex.loadedTexts (Ex.bookedFront identityPlugin) (Ex.withPlugin Ex.openedLunch) =
      some [(str% "open", [], []), (str% "open", [], []), (str% "txn", [], [])] := by
  refine ⟨?_, ?_, ?_, ?_, ?_, ?_, ?_⟩ <;> decide +kernel

/-- The assumptions hold for these cases: the plugins are found, and there are some. -/
example : (∀ n o, ∀ q : Str × Option Str, ((Ex.pairFront n).resolve (ofPlugin q) o).2.2 = none) ∧
    (∀ n o, (rawPlugins (Ex.pairFront n)
      { directives := Ex.openedLunch, options := Toy.options, plugins := [(str% "first", none), (str% "second", none)] } o).length = 2) ∧
    (∀ pl o, bookedPlugins (Ex.bookedFront pl) { directives := Ex.openedLunch, options := Toy.options, plugins := [(str% "passing", none)] } o ≠ []) ∧
    (∀ hit message, UsesRaw (Ex.pluginFront (rejectPlugin hit message))
      { directives := Ex.openedLunch, options := Toy.options, plugins := [(str% "passing", none)] } (str% "passing") (rejectPlugin hit message)) := by
  refine ⟨fun n o q => ?_, fun n o => rfl, fun pl o h => ?_, fun _ _ => ⟨none, rfl, fun _ => rfl⟩⟩
  · rfl
  · cases h

end Limabean
