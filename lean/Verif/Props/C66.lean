/-
C66: the loaded ledger is what the plugins and booking make of the beanfile.

Whatever the plugins do: if loading ends without an error, then the raw plugins have worked on the directives of the beanfile, booking on
their result, and the booked plugins on the result of booking. Plugins work in the order of the beanfile, each on the result of the one
before.
-/
import Verif.Proofs.CheckedLemmas
import Verif.Proofs.DecodedLemmas
import Verif.Proofs.DateLemmas
import Verif.Proofs.PassingLemmas
import Verif.Props.C45
import Verif.Props.C46
import Verif.Props.C59

namespace Limabean

open Spec Clj

variable {E : Ext} {L : BookLib}

namespace Spec

/-- The plugins of the beanfile which work on raw directives, in order. -/
def rawPlugins (F : Front E L) (p : Parsed) (options : Data) : List Plugin :=
  p.plugins.filterMap fun q => (F.resolve (ofPlugin q) options).1.map fun pl => { pl with name := q.1 }

/-- The plugins of the beanfile which work on booked directives, in order. -/
def bookedPlugins (F : Front E L) (p : Parsed) (options : Data) : List Plugin :=
  p.plugins.filterMap fun q => (F.resolve (ofPlugin q) options).2.1.map fun pl => { pl with name := q.1 }

/-- The directive `d` with synthetic spans: nothing but these is added, and nothing at all to what no plugin has made. -/
def SpansAdded (d r : Data) : Prop :=
  ((d.get (str% "provenance")).truthy = false → r = d) ∧ ∀ k, k ≠ str% "span-p" → k ≠ str% "postings" → r.get k = d.get k

/-- The plugins turn the directives `xs` into `ys`. If there are plugins, synthetic spans are added to what they have made, which the
server resolves to the texts for which they were made, if only transactions have postings. No directive carries an error. -/
structure PluginsGive (E : Ext) (T : Texts) (src : E.Sources) (phase : Option Str) (ps : List Plugin) (xs ys : List Data) : Prop where
  none : ps = [] → ys = xs
  some : ps ≠ [] → ∃ l, throughAll phase ps xs = some l ∧ List.Forall₂ SpansAdded l ys ∧ (∀ y ∈ ys, isErr y = false) ∧
    ((∀ d ∈ l, Shaped d) → List.Forall₂ (fun d r => (d.get (str% "provenance")).truthy = true →
      MarkedDirective T (fun s x => ∃ sp y, x = ofSpan sp ∧ E.resolve src sp = some y ∧ y.content = s) d r) l ys)

/-- What the server is asked to book: what the raw plugins have made, if there are any, as the server reads it; else what is in the
beanfile. -/
def ToBook (ordm : List (Str × Json) → List (Str × Json)) (ps : List Plugin) (p : Parsed) (xs : List Data) (ds : List Raw.Directive) : Prop :=
  if ps = [] then ds = p.directives else Json.all Wire.decDirective (xs.map (toJson ordm)) = some ds

end Spec

namespace Clj

theorem pluginsOfKind_raw (F : Front E L) (p : Parsed) (o : Data) : pluginsOfKind true (resolvedOf F p o) = rawPlugins F p o := by
  unfold pluginsOfKind resolvedOf rawPlugins
  rw [List.map_map, List.filterMap_map]
  rfl

theorem pluginsOfKind_booked (F : Front E L) (p : Parsed) (o : Data) : pluginsOfKind false (resolvedOf F p o) = bookedPlugins F p o := by
  unfold pluginsOfKind resolvedOf bookedPlugins
  rw [List.map_map, List.filterMap_map]
  rfl

theorem isMap_of_get {d : Data} {k : Str} (h : (d.get k).truthy = true) : Spec.IsMap d := by
  cases d <;> trivial

theorem mergeSpans_added {d : Data} (h : Spec.IsMap d) (spans : List Data) :
    ∀ k, k ≠ str% "span-p" → k ≠ str% "postings" → (mergeSpans d spans).get k = d.get k := by
  intro k h1 h2
  unfold mergeSpans
  dsimp only
  split
  · rw [get_assoc h, if_neg h1]
  · rw [get_assoc (isMap_assoc h _ _), if_neg h2, get_assoc h, if_neg h1]

theorem mapN_added (ds spans : List Data) : List.Forall₂ SpansAdded ds (mapN ds spans) := by
  induction ds generalizing spans with
  | nil => exact .nil
  | cons d ds ih =>
    unfold mapN
    cases hp : (d.get (str% "provenance")).truthy with
    | false =>
      rw [if_pos (by simp [nSpans, hp])]
      exact .cons ⟨fun _ => rfl, fun _ _ _ => rfl⟩ (ih _)
    | true =>
      rw [if_neg (by simp [nSpans, hp])]
      exact .cons ⟨fun h => (by rw [hp] at h; cases h), mergeSpans_added (isMap_of_get hp) _⟩ (ih _)

theorem merge_added {T : Texts} {txt : Data → Str} {create : List SyntheticSpan → Option (List Data)} {ds out : List Data}
    (h : mergeWithProvenance T txt create ds = some out) : List.Forall₂ SpansAdded ds out := by
  unfold mergeWithProvenance at h
  obtain ⟨spans, -, h⟩ := Option.map_eq_some_iff.1 h
  split at h
  · subst h
    exact List.forall₂_same.2 fun d _ => ⟨fun _ => rfl, fun _ _ _ => rfl⟩
  · subst h
    exact mapN_added ds spans

theorem objects_tok (ds : List Data) : ∀ o ∈ objects ds, o.tok < ds.length := by
  intro o ho
  unfold objects at ho
  obtain ⟨x, hx, rfl⟩ := List.mem_map.1 ho
  have := List.mem_zipIdx' hx
  exact this.1

theorem objects_nodup (ds : List Data) : ((objects ds).map Obj.tok).Nodup := by
  unfold objects
  rw [List.map_map]
  show (ds.zipIdx.map Prod.snd).Nodup
  rw [List.zipIdx_map_snd]
  exact List.nodup_range'

/-- Synthetic spans which the client requests. -/
theorem createSpans_ok (F : Front E L) (ho : IsMapOrder F.ordm) {n k : Nat} (hn : n < 2147483647) (src : E.Sources)
    (parsed : Except (List ParserError) Parsed) (rs : List SyntheticSpan) :
    Pod.createSpans F { nextId := n, server := some (.ready src parsed), served := k } rs =
      ({ nextId := n + 1, server := some (.ready (Server.createSpans src rs).1 parsed), served := k + 1 },
        some ((Server.createSpans src rs).2.map ofSpan)) := by
  unfold Pod.createSpans
  rw [invoke_ready F ho hn (x := .createSpans rs) _ rfl (by have := depth_ofSynthetics rs; omega)]
  · dsimp only
    rw [answer_result (p := .spans (Server.createSpans src rs).2) rfl (decode_list rfl fun x _ => decode_span rfl x)]
    rfl
  · rw [decMethod_createSpans, List.map_map]
    rw [Wire.all_map _ _ rs fun s _ => ?_]
    · rfl
    · have e : (toJson F.ordm ∘ ofSynthetic) s = .obj (F.ordm [(str% "name", .str s.name), (str% "content", .str s.content)]) := rfl
      rw [e]
      rcases order_two ho (str% "name", Json.str s.name) (str% "content", Json.str s.content) with e | e <;> rw [e] <;> rfl

/-- The server resolves in `src'` what it resolves in `src`. -/
def Keeps (E : Ext) (src src' : E.Sources) : Prop := ∀ sp x, E.resolve src sp = some x → E.resolve src' sp = some x

theorem PluginsGive.keep {T : Texts} {src src' : E.Sources} {phase : Option Str} {ps : List Plugin} {xs ys : List Data}
    (h : PluginsGive E T src phase ps xs ys) (hk : Keeps E src src') : PluginsGive E T src' phase ps xs ys := by
  refine ⟨h.none, fun hp => ?_⟩
  obtain ⟨l, h1, h2, h3, h4⟩ := h.some hp
  refine ⟨l, h1, h2, h3, fun hl => (h4 hl).imp fun d r hd hp => ?_⟩
  have hm : ∀ s d r, Marked (fun s x => ∃ sp y, x = ofSpan sp ∧ E.resolve src sp = some y ∧ y.content = s) s d r →
      Marked (fun s x => ∃ sp y, x = ofSpan sp ∧ E.resolve src' sp = some y ∧ y.content = s) s d r := by
    rintro s d r ⟨⟨sp, y, e, h, h'⟩, hk'⟩
    exact ⟨⟨sp, y, e, hk _ _ h, h'⟩, hk'⟩
  have := hd hp
  refine ⟨fun h => ⟨hm _ _ _ (this.other h).1, (this.other h).2⟩, fun h => ⟨hm _ _ _ (this.txn h).1, fun ps hps => ?_⟩⟩
  obtain ⟨qs, h5, h6⟩ := (this.txn h).2 ps hps
  exact ⟨qs, h5, h6.imp fun p q h => ⟨hm _ _ _ h.1, h.2⟩⟩

/-- The stage of plugins, if it ends without an error. -/
theorem plugins_stage (F : Front E L) (hinj : Function.Injective F.hash) (ho : IsMapOrder F.ordm) (hE : SpanStore E) (raw : Bool) {n k : Nat}
    (hn : n < 2147483647) {src : E.Sources} {parsed : Except (List ParserError) Parsed} {m m' : LoadedBeans E}
    (hm : m.pod = { nextId := n, server := some (.ready src parsed), served := k }) (h : runPluginsStage F raw m = .ok m')
    (he : m'.error = none) :
    ∃ n' k' src' ys, n' ≤ n + 1 ∧ (pluginsOfKind raw (m.plugins.getD []) = [] → k' = k) ∧ Keeps E src src' ∧
      (F.valid raw = validDct raw → pluginsOfKind raw (m.plugins.getD []) ≠ [] → ∀ y ∈ ys, validDct raw y = true) ∧
      PluginsGive E F.texts src' (if raw then none else some (str% "booked")) (pluginsOfKind raw (m.plugins.getD []))
        ((if raw then m.rawDirectives else m.bookedDirectives).getD []) ys ∧
      m' = { m with
             pod := { nextId := n', server := some (.ready src' parsed), served := k' }
             rawXfDirectives := if raw ∧ pluginsOfKind raw (m.plugins.getD []) ≠ [] then some ys else m.rawXfDirectives
             bookedXfDirectives := if raw = false ∧ pluginsOfKind raw (m.plugins.getD []) ≠ [] then some ys else m.bookedXfDirectives } := by
  unfold runPluginsStage at h
  dsimp only at h
  split at h
  · rename_i hp
    rw [List.isEmpty_iff] at hp
    cases h
    refine ⟨n, k, src, _, by omega, fun _ => rfl, fun sp x h => h, fun _ h => absurd hp h, ⟨fun _ => rfl, fun h => absurd hp h⟩, ?_⟩
    simp only [hp, ne_eq, not_true_eq_false, and_false, if_false, ← hm]
  · rename_i hp
    rw [List.isEmpty_iff] at hp
    revert h
    generalize ((if raw then m.rawDirectives else m.bookedDirectives).getD []) = xs
    generalize hps : pluginsOfKind raw (m.plugins.getD []) = ps at hp ⊢
    intro h
    unfold transformed at h
    cases hr : runPlugins F.hash (F.valid raw) (if raw then none else some (str% "booked")) ps xs.length (objects xs) with
    | none =>
      rw [hr] at h
      cases h
      cases he
    | some out =>
      rw [hr] at h
      have hl := C45_run hinj (objects_tok xs) hr
      rw [objects_data] at hl
      dsimp only at h
      have hck : ∀ d ∈ out.map Obj.data, Checked (F.valid raw) d := by
        intro d hd
        obtain ⟨o, ho, rfl⟩ := List.mem_map.1 hd
        exact runPlugins_checked hinj (objects_tok xs) (objects_nodup xs) hr o ho
      generalize out.map Obj.data = l at h hl hck
      have hcs : ∀ rs, m.pod.createSpans F rs =
          ({ nextId := n + 1, server := some (.ready (Server.createSpans src rs).1 parsed), served := k + 1 },
            some ((Server.createSpans src rs).2.map ofSpan)) := fun rs => by
        rw [hm]
        exact createSpans_ok F ho hn src parsed rs
      unfold mergeWithPod at h
      simp only [hcs] at h
      cases hg : mergeWithProvenance F.texts F.txt (fun reqs => some ((Server.createSpans src reqs).2.map ofSpan)) l with
      | none =>
        rw [hg] at h
        cases h
        cases he
      | some ys =>
        rw [hg] at h
        dsimp only at h
        have hx : (ys.filter fun d => (d.get (str% "err")).truthy) = [] := by
          by_contra hx
          have : (ys.filter fun d => (d.get (str% "err")).truthy).isEmpty = false := by simpa using hx
          rw [this] at h
          cases h
          cases he
        have hx' : ∀ y ∈ ys, isErr y = false := by
          intro y hy
          simpa [isErr] using List.filter_eq_nil_iff.1 hx y hy
        have hvalid : F.valid raw = validDct raw → ps ≠ [] → ∀ y ∈ ys, validDct raw y = true := by
          intro hv _ y hy
          rw [hv] at hck
          exact merge_valid hck hg y hy (hx' y hy)
        have hs := fun hd => C46_server_partial hE F.texts F.txt src (ds := l) hd hg
        rw [hx] at h
        simp only [List.isEmpty_nil, if_true, Except.ok.injEq] at h
        subst h
        by_cases hq : (spanRequests F.texts F.txt l).isEmpty = true
        · refine ⟨n, k, src, ys, by omega, fun _ => rfl, fun sp x h => h, hvalid, ⟨fun h => absurd h hp, fun _ => ⟨l, hl, merge_added hg, hx', fun hd => ?_⟩⟩, ?_⟩
          · have := hs hd
            rw [List.isEmpty_iff] at hq
            rw [hq] at this
            exact this.imp fun d r h => h.2
          · cases raw <;> simp [hp, hq, hm]
        · refine ⟨n + 1, k + 1, (Server.createSpans src (spanRequests F.texts F.txt l)).1, ys, by omega, fun h => absurd h hp, fun sp x h => hE.keptAll h,
            hvalid, ⟨fun h => absurd h hp, fun _ => ⟨l, hl, merge_added hg, hx', fun hd => (hs hd).imp fun d r h => h.2⟩⟩, ?_⟩
          cases raw <;> simp [hp, hq]

/-- The stage of booking, if it ends without an error. -/
theorem book_stage (F : Front E L) (ho : IsMapOrder F.ordm) (hs : IsOrder F.ord) (hL : DatesExist L) {n k : Nat} (hn : n < 2147483647)
    {src : E.Sources} {p : Parsed} (hd : ∀ d ∈ p.directives, DatesOk d) {m m' : LoadedBeans E}
    (hm : m.pod = { nextId := n, server := some (.ready src (.ok p)), served := k }) (h : bookRawDirectives F m = .ok m')
    (he : m'.error = none) :
    ∃ ds out w bs, (match m.rawXfDirectives with
        | none => ds = p.directives
        | some xs => Json.all Wire.decDirective (xs.map (toJson F.ordm)) = some ds) ∧
      book L (F.orders k) (Server.bookOptions p.options) ds = .success out w ∧
      List.Forall₂ (Spec.Resolved (.vec ((m.rawXfDirectives.or m.rawDirectives).getD []))) (out.map fun b => ofBooked F.ord (withoutLostBooked b)) bs ∧
      m' = { m with
             pod := { nextId := n + 1, server := some (.ready src (.ok p)), served := k + 1 }
             bookedDirectives := some bs } := by
  have hbad : ∀ pod r, Pod.book F m.pod m.rawXfDirectives = (pod, some r) → r.ok.truthy = true := by
    intro pod r hr
    by_contra hx
    unfold bookRawDirectives at h
    simp only [hr, hx, if_false] at h
    cases h
    cases he
  have e : ∀ pod, Pod.book F pod m.rawXfDirectives = ((Pod.invoke F pod (str% "book") (bookParams m.rawXfDirectives)).1,
        (Pod.invoke F pod (str% "book") (bookParams m.rawXfDirectives)).2.map mapError) := by
    intro pod
    cases m.rawXfDirectives <;> rfl
  by_cases hp : 127 ≤ levels (bookParams m.rawXfDirectives)
  · exfalso
    have h1 := e m.pod
    rw [hm, invoke_bad F ho hn (.inr hp), answer_other] at h1
    rw [hm] at hbad
    cases hbad _ _ h1
  rw [Nat.not_le] at hp
  cases hx : Wire.decMethod (requestEntries F.ordm (str% "book") (bookParams m.rawXfDirectives) (n + 1)) with
  | none =>
    exfalso
    have h1 := e m.pod
    rw [hm, invoke_bad F ho hn (.inl hx), answer_other] at h1
    rw [hm] at hbad
    cases hbad _ _ h1
  | some x =>
    obtain ⟨ds, rfl⟩ : ∃ ds, x = .book ds := by
      cases hr : m.rawXfDirectives with
      | none =>
        rw [hr] at hx
        have : Wire.decMethod (requestEntries F.ordm (str% "book") (bookParams none) (n + 1)) = some (.book none) :=
          decMethod_plain (x := .book none) (by simp)
        rw [this] at hx
        exact ⟨_, (Option.some.inj hx).symm⟩
      | some xs =>
        rw [hr, bookParams, Option.map_some, Option.getD_some, decMethod_book] at hx
        obtain ⟨ds, -, rfl⟩ := Option.map_eq_some_iff.1 hx
        exact ⟨_, rfl⟩
    have hds : match m.rawXfDirectives with
        | none => ds.getD p.directives = p.directives
        | some xs => Json.all Wire.decDirective (xs.map (toJson F.ordm)) = some (ds.getD p.directives) := by
      cases hr : m.rawXfDirectives with
      | none =>
        rw [hr] at hx
        have : Wire.decMethod (requestEntries F.ordm (str% "book") (bookParams none) (n + 1)) = some (.book none) :=
          decMethod_plain (x := .book none) (by simp)
        rw [this] at hx
        cases hx
        rfl
      | some xs =>
        rw [hr, bookParams, Option.map_some, Option.getD_some, decMethod_book] at hx
        obtain ⟨ds', h1, h2⟩ := Option.map_eq_some_iff.1 hx
        cases h2
        exact h1
    have hok : ∀ d ∈ ds.getD p.directives, DatesOk d := by
      cases hr : m.rawXfDirectives with
      | none => rw [hr] at hds; dsimp only at hds; rw [hds]; exact hd
      | some xs =>
        rw [hr] at hds
        intro d hd'
        obtain ⟨j, -, hj⟩ := Wire.all_mem hds d hd'
        exact Wire.decDirective_ok hj
    cases hb : book L (F.orders k) (Server.bookOptions p.options) (ds.getD p.directives) with
    | panic =>
      exfalso
      have h1 := e m.pod
      rw [hm, invoke_dies F ho hn hx (by simp [Server.healthy, Server.bookRequest, hb]) hp] at h1
      rw [hm] at hbad
      simpa [mapError, Data.truthy] using hbad _ _ h1
    | failure es =>
      exfalso
      have h1 := e m.pod
      rw [hm] at h1 hbad
      cases ds with
      | none =>
        cases hr : Server.resolveReports E p.directives es with
        | none =>
          rw [invoke_dies F ho hn hx (by simp_all [Server.healthy, Server.bookRequest]) hp] at h1
          simpa [mapError, Data.truthy] using hbad _ _ h1
        | some rs =>
          rw [invoke_ready F ho hn hx (src' := src) (r := Server.errorReports (some (.int ((n + 1 : Nat) : Int))) rs)
            (by simp_all [Server.healthy, Server.bookRequest]) hp] at h1
          dsimp only at h1
          rw [answer_reports] at h1
          simpa [Data.truthy] using hbad _ _ h1
      | some ds =>
        rw [invoke_ready F ho hn hx (src' := src) (r := Server.indexedErrorReports (some (.int ((n + 1 : Nat) : Int))) es)
          (by simp_all [Server.healthy, Server.bookRequest]) hp] at h1
        dsimp only at h1
        rw [answer_indexed] at h1
        simpa [Data.truthy] using hbad _ _ h1
    | success out w =>
      have hc := book_dates hL hok hb
      have h1 := book_success F ho hs hn (src := src) (p := p) (xs := m.rawXfDirectives) hx hb hc hp
      obtain ⟨bs, h2, h3⟩ := C42_directives (booked := out.map fun b => ofBooked F.ord (withoutLostBooked b))
        (.vec ((m.rawXfDirectives.or m.rawDirectives).getD [])) (by
        intro b hb
        obtain ⟨d, -, rfl⟩ := List.mem_map.1 hb
        refine ⟨trivial, fun ps hps p hp => ?_⟩
        rw [booked_postings] at hps
        cases hv : (withoutLostBooked d).variant with
        | transaction t =>
          rw [hv] at hps
          cases hps
          obtain ⟨q, -, rfl⟩ := List.mem_map.1 hp
          trivial
        | _ => rw [hv] at hps; cases hps)
      refine ⟨_, out, w, bs, hds, hb, h3, ?_⟩
      unfold bookRawDirectives at h
      rw [hm] at h
      simp only [h1] at h
      have e1 : (bookedAnswer F.ord out).get (str% "directives") = .vec (out.map fun b => ofBooked F.ord (withoutLostBooked b)) := rfl
      have e2 : (bookedAnswer F.ord out).get (str% "warnings") = .nil := rfl
      have e3 : (bookedAnswer F.ord out).truthy = true := rfl
      simp only [e1, e2, e3, h2, Data.elems, List.isEmpty_nil, if_true] at h
      cases h
      rfl

/-- The stages of a load which ends without an error. -/
theorem ledger_stages (F : Front E L) (hinj : Function.Injective F.hash) (ho : IsMapOrder F.ordm) (hs : IsOrder F.ord) (hE : SpanStore E)
    (hL : DatesExist L) (src : E.Sources) {p : Parsed} (hp : OptionsOk p.options) (hd : ∀ d ∈ p.directives, DatesOk d)
    {m : LoadedBeans E} (h : loadBeanfile F (.ready src (.ok p)) = .ok m) (he : m.error = none) :
    ∃ src' k xs ds out w bs ys,
      (∀ q ∈ p.plugins, (F.resolve (ofPlugin q) m.options).2.2 = none) ∧
      PluginsGive E F.texts src' none (rawPlugins F p m.options) (p.directives.map fun d => ofDirective F.ord (withoutLostMeta d)) xs ∧
      ToBook F.ordm (rawPlugins F p m.options) p xs ds ∧
      book L (F.orders k) (Server.bookOptions p.options) ds = .success out w ∧
      List.Forall₂ (Spec.Resolved (.vec xs)) (out.map fun b => ofBooked F.ord (withoutLostBooked b)) bs ∧
      PluginsGive E F.texts src' (some (str% "booked")) (bookedPlugins F p m.options) bs ys ∧
      (F.valid = validDct → (rawPlugins F p m.options ≠ [] → ∀ x ∈ xs, validDct true x = true) ∧
        (bookedPlugins F p m.options ≠ [] → ∀ y ∈ ys, validDct false y = true)) ∧
      m.rawXfDirectives = (if rawPlugins F p m.options ≠ [] then some xs else none) ∧
      m.directives = some ys ∧ m.registry = F.registry ys m.options ∧ m.pod.server = some (.ready src' (.ok p)) ∧
      decode F.ord (some (str% "result")) (Wire.encOptions p.options) = some m.options ∧ (rawPlugins F p m.options = [] → k = 4) ∧
      m.bookedDirectives = some bs := by
  obtain ⟨o, hx, hopt⟩ := options_ok F ho hs (n := 2) (by omega) src hp
  unfold loadBeanfile at h
  rw [start_ready F ho] at h
  dsimp only at h
  simp only [stages] at h
  have hstep : ∀ {m₀ : LoadedBeans E} {f : Stage E} {fs : List (Stage E)} {q : Except (Option (Pod E)) (LoadedBeans E)},
      m₀.error = none → (match bindAll m₀ (f :: fs) with | .error pod => .error (some pod) | .ok m => .ok m) = q → q = .ok m →
      ∃ m₁, f m₀ = .ok m₁ ∧ m₁.error = none ∧ (match bindAll m₁ fs with | .error pod => .error (some pod) | .ok m => .ok m) = q := by
    intro m₀ f fs q h0 hq hm
    rw [bindAll, if_neg (by simp [h0])] at hq
    cases hf : f m₀ with
    | error pod =>
      rw [hf] at hq
      subst hq
      cases hm
    | ok m₁ =>
      rw [hf] at hq
      refine ⟨m₁, rfl, ?_, hq⟩
      cases hm1 : m₁.error with
      | none => rfl
      | some er =>
        dsimp only at hq
        rw [bindAll_error (by simp [hm1])] at hq
        subst hq
        cases hm
        rw [he] at hm1
        cases hm1
  obtain ⟨m1, h1, e1, g1⟩ := hstep rfl h rfl
  have hr : ∀ r ∈ resolvedOf F p o, r.err = none := by
    by_contra hne
    push Not at hne
    obtain ⟨r, hr1, hr2⟩ := hne
    have hne : (((p.plugins.map ofPlugin).map (resolvePlugin F o)).filter (fun p => p.err.isSome)).isEmpty = false := by
      rw [List.isEmpty_eq_false_iff_exists_mem]
      exact ⟨r, List.mem_filter.2 ⟨hr1, Option.isSome_iff_ne_none.2 hr2⟩⟩
    simp only [getPluginsAndOptions, plugins_ok F ho (n := 1) (by omega), hopt, Data.truthy, if_true, Data.elems, hne, Bool.false_eq_true,
      if_false] at h1
    cases h1
    cases e1
  have hne : ((p.plugins.map ofPlugin).map (resolvePlugin F o)).filter (fun p => p.err.isSome) = [] := by
    rw [List.filter_eq_nil_iff]
    intro r hr'
    rw [hr r hr']
    simp
  simp only [getPluginsAndOptions, plugins_ok F ho (n := 1) (by omega), hopt, Data.truthy, if_true, Data.elems, hne, List.isEmpty_nil,
    Except.ok.injEq] at h1
  obtain ⟨m2, h2, e2, g2⟩ := hstep e1 g1 rfl
  subst h1
  simp only [getRawDirectives, directives_ok F ho hs (n := 3) (by omega) src hd, Data.truthy, if_true, Except.ok.injEq] at h2
  obtain ⟨m3, h3, e3, g3⟩ := hstep e2 g2 rfl
  have hm2 : m2 = { pod := ready 4 src (.ok p), plugins := some (resolvedOf F p o), options := o
                    rawDirectives := some (p.directives.map fun d => ofDirective F.ord (withoutLostMeta d)) } := h2.symm
  subst hm2
  obtain ⟨n3, k3, src3, xs, hn3, hq3, hk3, hv3, hg3, hm3⟩ := plugins_stage F hinj ho hE true (n := 4) (k := 4) (by omega) (src := src)
    (parsed := .ok p) rfl h3 e3
  obtain ⟨m4, h4, e4, g4⟩ := hstep e3 g3 rfl
  obtain ⟨ds, out, w, bs, hds, hb, hbs, hm4⟩ := book_stage F ho hs hL (n := n3) (k := k3) (by omega) (src := src3) hd (by rw [hm3]) h4 e4
  obtain ⟨m5, h5, e5, g5⟩ := hstep e4 g4 rfl
  obtain ⟨n5, k5, src5, ys, hn5, -, hk5, hv5, hg5, hm5⟩ := plugins_stage F hinj ho hE false (n := n3 + 1) (k := k3 + 1) (by omega) (src := src3)
    (parsed := .ok p) (by rw [hm4]) h5 e5
  obtain ⟨m6, h6, e6, g6⟩ := hstep e5 g5 rfl
  obtain ⟨m7, h7, e7, g7⟩ := hstep e6 g6 rfl
  simp only [setDirectives, Except.ok.injEq] at h6
  simp only [bindAll, Except.ok.injEq] at g7
  subst g7
  subst h6
  have hp4 : m4.plugins = some (resolvedOf F p o) := by rw [hm4, hm3]
  have hb4 : m4.bookedDirectives = some bs := by rw [hm4]
  have hr3 : m3.rawDirectives = some (p.directives.map fun d => ofDirective F.ord (withoutLostMeta d)) := by rw [hm3]
  have hx3 : m3.rawXfDirectives = if rawPlugins F p o ≠ [] then some xs else none := by
    rw [hm3]
    simp only [Option.getD_some, pluginsOfKind_raw, true_and]
  have hx4 : m4.bookedXfDirectives = none := by
    rw [hm4, hm3]
    simp
  simp only [Option.getD_some, pluginsOfKind_raw, if_true] at hg3
  simp only [hp4, hb4, Option.getD_some, pluginsOfKind_booked, Bool.false_eq_true, if_false] at hg5
  simp only [Option.getD_some, pluginsOfKind_raw] at hv3
  simp only [hp4, Option.getD_some, pluginsOfKind_booked] at hv5
  have hxs : (m3.rawXfDirectives.or m3.rawDirectives).getD [] = xs := by
    rw [hx3, hr3]
    by_cases hq : rawPlugins F p o = []
    · rw [if_neg (by simpa using hq), hg3.none hq]
      rfl
    · rw [if_pos hq]
      rfl
  have hys : (m5.bookedXfDirectives.or m5.bookedDirectives).getD [] = ys := by
    rw [hm5]
    simp only [hp4, hb4, hx4, Option.getD_some, pluginsOfKind_booked, true_and]
    by_cases hq : bookedPlugins F p o = []
    · rw [if_neg (by simpa using hq), hg5.none hq]
      rfl
    · rw [if_pos hq]
      rfl
  have ho5 : m5.options = o := by rw [hm5, hm4, hm3]
  unfold setRegistry at h7
  simp only [Option.getD_some, hys, ho5] at h7
  cases hreg : F.registry ys o with
  | none => rw [hreg] at h7; cases h7
  | some reg =>
    rw [hreg] at h7
    simp only [Except.ok.injEq] at h7
    subst h7
    refine ⟨src5, k3, xs, ds, out, w, bs, ys, ?_, ?_, ?_, hb, ?_, ?_, fun hv => ⟨hv3 (by rw [hv]), hv5 (by rw [hv])⟩, ?_, rfl, ?_, ?_, ?_, ?_⟩
    · intro q hq
      exact hr (resolvePlugin F o (ofPlugin q)) (List.mem_map_of_mem (List.mem_map_of_mem hq))
    · exact PluginsGive.keep hg3 hk5
    · unfold ToBook
      rw [hx3] at hds
      by_cases hq : rawPlugins F p o = []
      · rw [if_pos hq]
        rw [if_neg (by simpa using hq)] at hds
        exact hds
      · rw [if_neg hq]
        rw [if_pos hq] at hds
        exact hds
    · rw [hxs] at hbs
      exact hbs
    · exact hg5
    · show m5.rawXfDirectives = _
      rw [hm5, hm4]
      simpa using hx3
    · exact hreg.symm
    · rw [hm5]
    · exact hx
    · refine ⟨fun hr0 => hq3 ?_, ?_⟩
      · simp only [Option.getD_some, pluginsOfKind_raw]
        exact hr0
      · show m5.bookedDirectives = _
        rw [hm5]
        exact hb4

end Clj

/-- **C66.** If loading ends without an error, all plugins were found; the directives of the beanfile went through the raw plugins, what
came out was booked, and the booked directives went through the booked plugins; what came out are the directives of the ledger. Each
booked directive stems from one which was booked and has its span, synthetic span and provenance (`Resolved`, C42). The registry is made
of these directives. -/
theorem C66_ledger (F : Front E L) (hinj : Function.Injective F.hash) (ho : IsMapOrder F.ordm) (hs : IsOrder F.ord) (hE : SpanStore E)
    (hL : DatesExist L) (src : E.Sources) {p : Parsed} (hp : OptionsOk p.options) (hd : ∀ d ∈ p.directives, DatesOk d)
    {m : LoadedBeans E} (h : loadBeanfile F (.ready src (.ok p)) = .ok m) (he : m.error = none) :
    ∃ src' k xs ds out w bs ys,
      (∀ q ∈ p.plugins, (F.resolve (ofPlugin q) m.options).2.2 = none) ∧
      PluginsGive E F.texts src' none (rawPlugins F p m.options) (p.directives.map fun d => ofDirective F.ord (withoutLostMeta d)) xs ∧
      ToBook F.ordm (rawPlugins F p m.options) p xs ds ∧
      book L (F.orders k) (Server.bookOptions p.options) ds = .success out w ∧
      List.Forall₂ (Spec.Resolved (.vec xs)) (out.map fun b => ofBooked F.ord (withoutLostBooked b)) bs ∧
      PluginsGive E F.texts src' (some (str% "booked")) (bookedPlugins F p m.options) bs ys ∧
      m.directives = some ys ∧ m.registry = F.registry ys m.options ∧ m.pod.server = some (.ready src' (.ok p)) := by
  obtain ⟨src', k, xs, ds, out, w, bs, ys, h1, h2, h3, h4, h5, h6, -, -, h7, h8, h9, -⟩ := ledger_stages F hinj ho hs hE hL src hp hd h he
  exact ⟨src', k, xs, ds, out, w, bs, ys, h1, h2, h3, h4, h5, h6, h7, h8, h9⟩

namespace Ex

/-- A plugin which replaces each directive by one with a flag. -/
def stamping (flag : Str) : Plugin where
  name := []
  step l := match l.getLast? with
    | some d => [.new (d.assoc (str% "flag") (.str flag))]
    | none => []
  finish _ := []

/-- A front end in which each plugin is both raw and booked. -/
def stampingFront : Front Toy.ext Toy.lib :=
  { front with resolve := fun _ _ => (some (stamping (str% "!")), some (stamping (str% "?")), none) }

/-- The text of a string or keyword. -/
def textOf : Data → Str
  | .str s => s
  | .kw s => s
  | _ => []

/-- The flags and the provenance of the directives of the loaded ledger. -/
def loadedFlags (F : Front Toy.ext Toy.lib) (s : Server Toy.ext) : Option (List (Str × List Str)) :=
  match loadBeanfile F s with
  | .ok m => if m.error.isSome then none else m.directives.map fun l => l.map fun d =>
      (textOf (d.get (str% "flag")), (d.get (str% "provenance")).elems.map textOf)
  | .error _ => none

end Ex

/-- Non-vacuity of `C66_ledger`: a ledger with a plugin which replaces all directives, before and after booking. Flags of directives
which have none are lost in booking, the provenance is not. -/
example : Function.Injective Ex.stampingFront.hash ∧ IsMapOrder Ex.stampingFront.ordm ∧ IsOrder Ex.stampingFront.ord ∧ SpanStore Toy.ext ∧
    DatesExist Toy.lib ∧ OptionsOk Toy.options ∧ (∀ d ∈ Ex.patient, DatesOk d) ∧
    Ex.loadedFlags Ex.stampingFront (Ex.withPlugin Ex.patient) =
      some (List.replicate 2 (str% "?", [str% "passing", str% "booked", str% "passing"])) := by
  have hday : ∀ n, n = 1 ∨ n = 5 → CalendarDate (Toy.day n) := by
    rintro n (rfl | rfl) <;> exact Wire.validDate_iff.1 (by decide +kernel)
  refine ⟨fun _ _ h => h, fun l => .refl l, fun l => .refl l, Toy.spanStore, Toy.lib_dates, by simp [OptionsOk, Toy.options, NoDatesEntries], ?_, ?_⟩
  · intro d hd
    simp only [Ex.patient, List.mem_cons, List.not_mem_nil, or_false] at hd
    rcases hd with rfl | rfl
    · exact ⟨hday 1 (by simp), by simp [Toy.mkOpen, MetadataOk], trivial⟩
    · exact ⟨hday 5 (by simp), by simp [MetadataOk], trivial⟩
  · decide +kernel

end Limabean
