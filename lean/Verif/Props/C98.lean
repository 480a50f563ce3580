/-
C98: what a raw plugin made is loaded as if the user had written it.
-/
import Verif.Proofs.WrittenBase
import Verif.Clj.TestPlugins
import Verif.Props.C80

namespace Limabean

open Spec Clj

variable {E : Ext} {L : BookLib}

namespace Spec

/-- The ledger uses this raw plugin and no other, and the plugin is found. -/
def UsesRaw (F : Front E L) (p : Parsed) (name : Str) (pl : Plugin) : Prop :=
  ∃ config, p.plugins = [(name, config)] ∧ ∀ o, F.resolve (ofPlugin (name, config)) o = (some pl, none, none)

/-- The ledger uses these plugins for raw directives, all of its plugins are found, and none works on booked directives. -/
def UsesAllRaw (F : Front E L) (p : Parsed) (ps : List Plugin) : Prop :=
  ps ≠ [] ∧ ∀ o, (∀ q ∈ p.plugins, (F.resolve (ofPlugin q) o).2.2 = none) ∧ rawPlugins F p o = ps ∧ bookedPlugins F p o = []

/-- How loading must end if the raw plugins made `xs`, and booking ends so. -/
def EndsAs (F : Front E L) (xs : List Data) (m : LoadedBeans E) : Outcome → Prop
  | .success out _ => m.error = none ∧ ∃ l out', m.directives = some l ∧ List.Forall₂ (BookedLike .upToOrder) (out.map withoutLostBooked) out' ∧
      List.Forall₂ (Resolved (.vec xs)) (out'.map (ofBooked F.ord)) l
  | .failure es => ∃ rs a b b', m.error = some (.booking (some rs)) ∧ List.Forall₂ (Reports E xs) (a ++ b') rs ∧
      es = a ++ b ∧ b.Perm b' ∧ ∀ rep ∈ b, rep.reason = .unusedNoBalance
  | .panic => m.error = some (.booking (some []))

end Spec

namespace Clj

/-- Loading from booking on, if there are no plugins for booked directives. -/
theorem written_booked (F : Front E L) (hL : Blind L) (hL' : DatesExist L) (ho : IsMapOrder F.ordm) (hs : IsOrder F.ord)
    (hreg : ∀ l o, F.registry l o ≠ none) (hf : ∀ k m, (F.orders k m).Perm m) {p : Parsed} {o : Data} {n' : Nat} (hn : n' ≤ 5) {src' : E.Sources}
    {xs : List Data} (hk : pluginsOfKind false (resolvedOf F p o) = []) {es ds : List Raw.Directive}
    (h4 : Json.all Wire.decDirective (xs.map (toJson F.ordm)) = some es) (h5 : List.Forall₂ (DirectiveLike .reread) ds es) (hdeep : NotTooDeep xs)
    (hds : ∀ d ∈ ds, DatesOk d) (order : AMap Str (Account L) → AMap Str (Account L)) (hf' : ∀ m, (order m).Perm m) :
    ∃ m, bindAll (afterAuto F n' src' p o xs) ((stages F).drop 3) = .ok m ∧ m.rawXfDirectives = some xs ∧
      EndsAs F xs m (book L order (Server.bookOptions p.options) ds) := by
  have h6 := C58_attached hL .reread order (F.orders n') hf' (hf n') (Server.bookOptions p.options) h5
  have hdec : Wire.decMethod (requestEntries F.ordm (str% "book") (bookParams (some xs)) (n' + 1)) = some (.book (some es)) := by
    rw [bookParams, Option.map_some, Option.getD_some, decMethod_book, h4]
    rfl
  simp only [stages, List.drop_succ_cons, List.drop_zero]
  rw [bindAll, if_neg (by simp [afterAuto])]
  cases hb : book L order (Server.bookOptions p.options) ds with
  | success out w =>
    rw [hb] at h6
    cases hb' : book L (F.orders n') (Server.bookOptions p.options) es with
    | success out' w' =>
      rw [hb'] at h6
      obtain ⟨h7, -⟩ := h6
      have hdates := book_dates hL' hds hb
      have h8 := book_success F ho hs (n := n') (k := n') (by omega) (src := src') (p := p) (xs := some xs) (ds := some es) hdec hb' (by
          intro c hc'
          obtain ⟨b, hb, hbc⟩ := forall₂_right h7 hc'
          exact booked_reread_dates hbc (hdates b hb)) (notTooDeep_iff.1 hdeep)
      obtain ⟨l, h9, h10⟩ := C42_directives (booked := (out'.map withoutLostBooked).map (ofBooked F.ord)) (.vec xs) (by
        intro b hb
        obtain ⟨d, -, rfl⟩ := List.mem_map.1 hb
        exact booked_maps F.ord d)
      have e : bookRawDirectives F (afterAuto F n' src' p o xs) =
          .ok { afterAuto F (n' + 1) src' p o xs with bookedDirectives := some l } := by
        unfold bookRawDirectives afterAuto
        simp only [show (ready n' src' (.ok p)).book F (some xs) = _ from h8]
        have h9' : resolveDirectives ((bookedAnswer F.ord out').get (str% "directives")) (.vec xs) = .vec l := by
          rw [← h9, List.map_map]
          rfl
        simp only [Option.some_or, Option.getD_some, h9']
        rfl
      rw [e]
      cases hr : F.registry l o with
      | none => exact absurd hr (hreg _ _)
      | some r =>
        refine ⟨{ afterAuto F (n' + 1) src' p o xs with bookedDirectives := some l, directives := some l, registry := some r }, ?_,
          rfl, rfl, l, _, rfl, booked_reread_all h7, h10⟩
        simp only [bindAll, afterAuto, Option.isSome_none, Bool.false_eq_true, if_false, runPluginsStage, Option.getD_some, hk, List.isEmpty_nil,
          if_true, setDirectives, Option.none_or, setRegistry, hr]
    | failure es' => rw [hb'] at h6; exact h6.elim
    | panic => rw [hb'] at h6; exact h6.elim
  | failure rs =>
    rw [hb] at h6
    cases hb' : book L (F.orders n') (Server.bookOptions p.options) es with
    | success out' w' => rw [hb'] at h6; exact h6.elim
    | panic => rw [hb'] at h6; exact h6.elim
    | failure es' =>
      rw [hb'] at h6
      obtain ⟨a, b, b', rfl, rfl, h7, h8⟩ := h6
      obtain ⟨m, rs, h9, h10, -, h11⟩ := C41_partial F ho hf (n := n') (k := n') (by omega) (src := src') (p := p)
        (m := (afterAuto F n' src' p o xs)) rfl rfl h4 hdeep hb'
      rw [h9]
      simp only [bindAll, h10, Option.isSome_some, if_true]
      refine ⟨m, rfl, ?_, rs, a, b, b', h10, h11, rfl, h7, h8⟩
      rw [book_keeps F h9]
      rfl
  | panic =>
    rw [hb] at h6
    cases hb' : book L (F.orders n') (Server.bookOptions p.options) es with
    | success out' w' => rw [hb'] at h6; exact h6.elim
    | failure es' => rw [hb'] at h6; exact h6.elim
    | panic =>
      have h8 := invoke_dies F ho (n := n') (k := n') (by omega) (src := src') (parsed := .ok p) (m := str% "book") (p := bookParams (some xs)) hdec (by
        simp [Server.healthy, Server.bookRequest, hb']) (notTooDeep_iff.1 hdeep)
      have e : bookRawDirectives F (afterAuto F n' src' p o xs) = .ok { afterAuto F n' src' p o xs with
          pod := { nextId := n' + 1, server := none, served := n' }, error := some (.booking (some [])) } := by
        unfold bookRawDirectives afterAuto
        have h9 : Pod.book F (ready n' src' (.ok p)) (some xs) = ({ nextId := n' + 1, server := none, served := n' }, some { ok := .nil }) := by
          rw [show Pod.book F (ready n' src' (.ok p)) (some xs) = ((Pod.invoke F (ready n' src' (.ok p)) (str% "book") (bookParams (some xs))).1,
            (Pod.invoke F (ready n' src' (.ok p)) (str% "book") (bookParams (some xs))).2.map mapError) from rfl, ready, h8]
          rfl
        simp only [h9]
        rfl
      rw [e]
      refine ⟨{ afterAuto F n' src' p o xs with
          pod := { nextId := n' + 1, server := none, served := n' }, error := some (.booking (some [])) }, ?_, rfl, rfl⟩
      simp only [bindAll, Option.isSome_some, if_true]

/-- What a plugin does does not depend on its name. -/
theorem steps_name (pl : Plugin) (name : Str) (tag : Data → Option Data) (pre xs : List Data) :
    steps { pl with name := name } tag pre xs = steps pl tag pre xs := by
  induction xs generalizing pre with
  | nil => rfl
  | cons x xs ih => simp only [steps, ih]

theorem through_name (pl : Plugin) (name : Str) (tag : Data → Option Data) (xs : List Data) :
    through { pl with name := name } tag xs = through pl tag xs := by
  simp only [through, steps_name]

/-- Loading up to the raw plugins. -/
theorem load_written (F : Front E L) (hinj : Function.Injective F.hash) (ho : IsMapOrder F.ordm) (hs : IsOrder F.ord) (hv : F.valid = validDct)
    (src : E.Sources) {p : Parsed} (hp : OptionsOk p.options)
    (hd : ∀ d ∈ p.directives, DatesOk d ∧ NumbersFit (withoutLostMeta d)) {ps : List Plugin} (hq : UsesAllRaw F p ps) {ys : List Data}
    (ht : throughVetted (validDct true) none ps (p.directives.map fun d => ofDirective F.ord (withoutLostMeta d)) = some ys)
    {ds : List Raw.Directive} (hw : List.Forall₂ Writes ys ds) :
    ∃ o n' src' xs, n' ≤ 5 ∧ List.Forall₂ Spanned ys xs ∧ List.Forall₂ Writes xs ds ∧ pluginsOfKind false (resolvedOf F p o) = [] ∧
      loadBeanfile F (.ready src (.ok p)) = match bindAll (afterAuto F n' src' p o xs) ((stages F).drop 3) with
        | .error pod => .error (some pod)
        | .ok m => .ok m := by
  obtain ⟨hne, hq⟩ := hq
  obtain ⟨o, -, h⟩ := prepared F ho hs src hp (fun d h => (hd d h).1) fun o r hr => by
    simp only [resolvedOf, List.mem_map] at hr
    obtain ⟨x, ⟨q, hq', rfl⟩, rfl⟩ := hr
    exact (hq o).1 q hq'
  have hraw : pluginsOfKind true (resolvedOf F p o) = ps := by rw [pluginsOfKind_raw]; exact (hq o).2.1
  have hbooked : pluginsOfKind false (resolvedOf F p o) = [] := by rw [pluginsOfKind_booked]; exact (hq o).2.2
  have hne' : ps.isEmpty = false := by
    cases ps with
    | nil => exact absurd rfl hne
    | cons => rfl
  obtain ⟨n', src', xs, h1, h2, h3, h4⟩ := written_transformed F hinj ho hv ps (n := 4) (by omega) src (.ok p)
    (xs := p.directives.map fun d => ofDirective F.ord (withoutLostMeta d)) (by
      intro x hx
      obtain ⟨d, hdm, rfl⟩ := List.mem_map.1 hx
      exact (valid_raw hs _).2 (hd d hdm).2) (ys := ys) ht hw
  refine ⟨o, n', src', xs, h1, h3, h4, hbooked, ?_⟩
  have e : runPluginsStage F true (afterRaw F src p o none) = .ok (afterAuto F n' src' p o xs) := by
    have hf : xs.filter (fun d => (d.get (str% "err")).truthy) = [] := by
      rw [List.filter_eq_nil_iff]
      intro x hx
      obtain ⟨d, -, hdx⟩ := forall₂_right (List.Forall₂.flip h4) hx
      have := hdx.noError
      simpa [isErr] using this
    simp only [runPluginsStage, afterRaw, Option.getD_some, hraw, hne', Bool.false_eq_true, if_false, if_true, h2, hf,
      List.isEmpty_nil, afterAuto]
  have hl : loadBeanfile F (.ready src (.ok p)) = match bindAll (afterRaw F src p o none) ((stages F).drop 2) with
        | .error pod => .error (some pod)
        | .ok m => .ok m := by
    unfold loadBeanfile
    rw [start_ready F ho]
    dsimp only
    rw [← List.take_append_drop 2 (stages F), bindAll_append, h]
    rfl
  rw [hl]
  simp only [stages, List.drop_succ_cons, List.drop_zero]
  rw [bindAll, if_neg (by simp [afterRaw]), e]

end Clj

/-- **C98** for ledgers whose numbers satisfy the client's specification: if what the raw plugins pass on, one after the other and checked
each time, stands for the directives `ds`, then the ledger is loaded as if the user had written `ds`: it ends as booking `ds` ends.
Missing: other numbers, for which loading with any plugin fails (`C54_refused`). -/
theorem C98_partial (F : Front E L) (hL : Blind L) (hL' : DatesExist L) (hinj : Function.Injective F.hash) (ho : IsMapOrder F.ordm) (hs : IsOrder F.ord)
    (hreg : ∀ l o, F.registry l o ≠ none) (hf : ∀ k m, (F.orders k m).Perm m) (hv : F.valid = validDct) (src : E.Sources)
    {p : Parsed} (hp : OptionsOk p.options) (hd : ∀ d ∈ p.directives, DatesOk d ∧ NumbersFit (withoutLostMeta d))
    {ps : List Plugin} (hq : UsesAllRaw F p ps) {ys : List Data}
    (ht : throughVetted (validDct true) none ps (p.directives.map fun d => ofDirective F.ord (withoutLostMeta d)) = some ys)
    {ds : List Raw.Directive} (hw : List.Forall₂ Writes ys ds) (hds : ∀ d ∈ ds, DatesOk d)
    (order : AMap Str (Account L) → AMap Str (Account L)) (hf' : ∀ m, (order m).Perm m) :
    ∃ m xs, loadBeanfile F (.ready src (.ok p)) = .ok m ∧ m.rawXfDirectives = some xs ∧ List.Forall₂ Spanned ys xs ∧
      EndsAs F xs m (book L order (Server.bookOptions p.options) ds) := by
  obtain ⟨o, n', src', xs, hn, hx, hxw, hk, hload⟩ := load_written F hinj ho hs hv src hp hd hq ht hw
  obtain ⟨es, h4, h5⟩ := written_sent ho hxw
  have hdeep : NotTooDeep xs := by
    intro x hx'
    obtain ⟨d, -, h⟩ := forall₂_right (List.Forall₂.flip hxw) hx'
    exact h.shallow
  obtain ⟨m, h1, h2, h3⟩ := written_booked F hL hL' ho hs hreg hf hn (src' := src') hk h4 h5 hdeep hds order hf'
  refine ⟨m, xs, ?_, h2, hx, h3⟩
  rw [hload, h1]

namespace Clj

theorem usesRaw_all {F : Front E L} {p : Parsed} {name : Str} {pl : Plugin} (h : UsesRaw F p name pl) : UsesAllRaw F p [{ pl with name := name }] := by
  obtain ⟨config, h1, h2⟩ := h
  refine ⟨by simp, fun o => ⟨fun q hq => ?_, ?_, ?_⟩⟩
  · rw [h1, List.mem_singleton] at hq
    subst hq
    rw [h2]
  · rw [rawPlugins, h1]
    simp [h2]
  · rw [bookedPlugins, h1]
    simp [h2]

theorem through_vetted {name : Str} {pl : Plugin} {xs ys : List Data} (h : through pl (provenanceTag name none) xs = some ys)
    {ds : List Raw.Directive} (hw : List.Forall₂ Writes ys ds) :
    throughVetted (validDct true) none [{ pl with name := name }] xs = some ys := by
  simp only [throughVetted]
  rw [through_name, h, Option.bind_some, vetted_all, Option.bind_some]
  intro y hy
  obtain ⟨d, -, hd⟩ := forall₂_right (List.Forall₂.flip hw) hy
  exact hd.checked

theorem dct_withoutLost (ord : List Data → List Data) (d : Raw.Directive) :
    (ofDirective ord (withoutLostMeta d)).get (str% "dct") = (ofDirective ord d).get (str% "dct") := by
  rw [dct_ofDirective, dct_ofDirective]
  cases h : d.variant <;> simp [withoutLostMeta, h]

theorem narration_run {ord : List Data → List Data} (hs : IsOrder ord) (name s : Str) {ds : List Raw.Directive}
    (hd : ∀ d ∈ ds, DirectiveOk d ∧ NumbersFit (withoutLostMeta d)) (pre : List Data) :
    ∃ ys, steps (narrationPlugin s) (provenanceTag name none) pre (ds.map fun d => ofDirective ord (withoutLostMeta d)) = some ys ∧
      List.Forall₂ Writes ys (ds.map (withNarration s)) ∧
      List.Forall₂ (fun d y => ∀ x, Spanned y x → NarratedBy ord name s d x) ds ys := by
  induction ds generalizing pre with
  | nil => exact ⟨[], rfl, .nil, .nil⟩
  | cons d ds ih =>
    obtain ⟨ys, h1, h2, h3⟩ := ih (fun d h => hd d (by simp [h])) (pre ++ [ofDirective ord (withoutLostMeta d)])
    have hw := writes_read hs (hd d (by simp)).1 (hd d (by simp)).2
    have hprov := noProvenance_ofDirective ord (withoutLostMeta d)
    simp only [List.map_cons, steps, h1, Option.bind_eq_bind, Option.bind_some]
    have hstep : (narrationPlugin s).step (pre ++ [ofDirective ord (withoutLostMeta d)]) =
        if isKw ((ofDirective ord (withoutLostMeta d)).get (str% "dct")) (str% "txn") then
          [.new ((ofDirective ord (withoutLostMeta d)).assoc (str% "narration") (.str s))] else [.old pre.length] := by
      simp [narrationPlugin]
    rw [hstep]
    cases hv : d.variant with
    | transaction t =>
      have hk : (ofDirective ord (withoutLostMeta d)).get (str% "dct") = .kw (str% "txn") := by
        rw [dct_withoutLost, dct_ofDirective, hv]
      have hm := valid_isMap hw.checked
      have hw' := writes_narration hw hk s
      obtain ⟨y, g1, g2, g3, g4⟩ := writes_tagged hw' (by rw [get_assoc hm, if_neg (by decide)]; exact hprov) name
      have he := hw'.noError
      refine ⟨y :: ys, ?_, .cons g2 h2, .cons (fun x hx => ?_) h3⟩
      · rw [hk, if_pos (show isKw (.kw (str% "txn")) (str% "txn") = true from rfl)]
        simp only [Json.all, passOn, he, Bool.false_eq_true, if_false, g1]
        rfl
      · have ht : (y.get (str% "provenance")).truthy = true := by rw [g3]; rfl
        unfold Spanned at hx
        rw [if_pos ht] at hx
        obtain ⟨k1, -, k3⟩ := hx
        unfold NarratedBy
        simp only [hv]
        refine ⟨by rw [k3 _ (by decide) (by decide), g3], ?_, k1⟩
        rw [k3 _ (by decide) (by decide), g4 _ (by decide), get_assoc hm, if_pos rfl]
    | _ =>
      have hk : isKw ((ofDirective ord (withoutLostMeta d)).get (str% "dct")) (str% "txn") = false := by
        rw [dct_withoutLost, dct_ofDirective, hv]
        rfl
      have e : withNarration s d = d := by simp [withNarration, hv]
      refine ⟨ofDirective ord (withoutLostMeta d) :: ys, ?_, .cons (e.symm ▸ hw) h2, .cons (fun x hx => ?_) h3⟩
      · rw [hk]
        simp [Json.all, passOn]
      · unfold Spanned at hx
        rw [if_neg (by rw [hprov]; simp [Data.truthy])] at hx
        subst hx
        simp [NarratedBy, hv]

theorem close_run {ord : List Data → List Data} (hs : IsOrder ord) (name : Str) (accs : List Str) {ds : List Raw.Directive}
    (hd : ∀ d ∈ ds, DirectiveOk d ∧ NumbersFit (withoutLostMeta d)) (pre : List Data) :
    ∃ ys, steps (closePlugin accs) (provenanceTag name none) pre (ds.map fun d => ofDirective ord (withoutLostMeta d)) = some ys ∧
      List.Forall₂ Writes ys (closedAtOnce accs ds) := by
  induction ds generalizing pre with
  | nil => exact ⟨[], rfl, .nil⟩
  | cons d ds ih =>
    obtain ⟨ys, h1, h2⟩ := ih (fun d h => hd d (by simp [h])) (pre ++ [ofDirective ord (withoutLostMeta d)])
    have hok := (hd d (by simp)).1
    have hw := writes_read hs hok (hd d (by simp)).2
    simp only [List.map_cons, steps, h1, Option.bind_eq_bind, Option.bind_some]
    have hstep : (closePlugin accs).step (pre ++ [ofDirective ord (withoutLostMeta d)]) =
        if isKw ((ofDirective ord (withoutLostMeta d)).get (str% "dct")) (str% "open") &&
            (strings ((ofDirective ord (withoutLostMeta d)).get (str% "acc"))).any accs.contains then
          [.old pre.length, .new (closeData (ofDirective ord (withoutLostMeta d)))] else [.old pre.length] := by
      simp [closePlugin]
    have hold : ∀ ys', Json.all (passOn (provenanceTag name none) (pre ++ [ofDirective ord (withoutLostMeta d)])) [Out.old pre.length] = some ys' ↔
        ys' = [ofDirective ord (withoutLostMeta d)] := by
      intro ys'
      simp [Json.all, passOn, eq_comm]
    rw [hstep]
    unfold closedAtOnce at h2 ⊢
    rw [List.flatMap_cons]
    cases hv : d.variant with
    | opn o =>
      have hv' : (withoutLostMeta d).variant = .opn o := by simp [withoutLostMeta, hv]
      have hk : (ofDirective ord (withoutLostMeta d)).get (str% "dct") = .kw (str% "open") := by
        rw [dct_withoutLost, dct_ofDirective, hv]
      have ha := acc_open ord hv'
      rw [hk, ha]
      simp only [isKw, beq_self_eq_true, Bool.true_and, strings, List.any_cons, List.any_nil, Bool.or_false, List.contains_iff_mem]
      by_cases hc : o.acc ∈ accs
      · rw [if_pos hc, if_pos hc]
        have hplain : PlainName o.acc := by
          have := hok.variant
          rw [hv] at this
          exact this.1
        have hcl := writes_close hok.date hplain
        obtain ⟨y, g1, g2, -⟩ := writes_tagged hcl rfl name
        have hdata : closeData (ofDirective ord (withoutLostMeta d)) =
            .map [(str% "date", .date d.date), (str% "dct", .kw (str% "close")), (str% "acc", .str o.acc)] := by
          simp only [closeData, ha, date_ofDirective]
          rfl
        refine ⟨ofDirective ord (withoutLostMeta d) :: y :: ys, ?_, .cons hw (.cons g2 h2)⟩
        rw [hdata]
        have he := hcl.noError
        simp [Json.all, passOn, he, g1]
      · rw [if_neg hc, if_neg hc]
        exact ⟨ofDirective ord (withoutLostMeta d) :: ys, by rw [(hold _).2 rfl]; rfl, .cons hw h2⟩
    | _ =>
      have hk : isKw ((ofDirective ord (withoutLostMeta d)).get (str% "dct")) (str% "open") = false := by
        rw [dct_withoutLost, dct_ofDirective, hv]
        rfl
      refine ⟨ofDirective ord (withoutLostMeta d) :: ys, ?_, .cons hw h2⟩
      rw [hk, Bool.false_and, if_neg Bool.false_ne_true, (hold _).2 rfl]
      rfl

end Clj

/-- C98 for the plugin with which the documentation explains plugins: a ledger with `set-narration` is loaded as if every transaction
had this narration. -/
theorem C98_narration (F : Front E L) (hL : Blind L) (hL' : DatesExist L) (hinj : Function.Injective F.hash) (ho : IsMapOrder F.ordm) (hs : IsOrder F.ord)
    (hreg : ∀ l o, F.registry l o ≠ none) (hf : ∀ k m, (F.orders k m).Perm m) (hv : F.valid = validDct) (src : E.Sources)
    {p : Parsed} (hp : OptionsOk p.options) (hd : ∀ d ∈ p.directives, DirectiveOk d ∧ DatesOk d ∧ NumbersFit (withoutLostMeta d))
    {name s : Str} (hq : UsesRaw F p name (narrationPlugin s))
    (order : AMap Str (Account L) → AMap Str (Account L)) (hf' : ∀ m, (order m).Perm m) :
    ∃ m xs, loadBeanfile F (.ready src (.ok p)) = .ok m ∧ m.rawXfDirectives = some xs ∧ List.Forall₂ (NarratedBy F.ord name s) p.directives xs ∧
      EndsAs F xs m (book L order (Server.bookOptions p.options) (p.directives.map (withNarration s))) := by
  obtain ⟨ys, h1, h2, h3⟩ := narration_run hs name s (fun d h => ⟨(hd d h).1, (hd d h).2.2⟩) []
  have ht : through (narrationPlugin s) (provenanceTag name none) (p.directives.map fun d => ofDirective F.ord (withoutLostMeta d)) = some ys := by
    unfold through
    rw [h1]
    simp [narrationPlugin, Json.all]
  obtain ⟨m, xs, g1, g2, g3, g4⟩ := C98_partial F hL hL' hinj ho hs hreg hf hv src hp (fun d h => (hd d h).2) (usesRaw_all hq) (through_vetted ht h2) h2 (by
    intro d h
    obtain ⟨e, he, rfl⟩ := List.mem_map.1 h
    obtain ⟨k1, k2, k3⟩ := (hd e he).2.1
    unfold withNarration
    split
    · rename_i t ht
      rw [ht] at k3
      exact ⟨k1, k2, k3⟩
    · exact ⟨k1, k2, k3⟩) order hf'
  refine ⟨m, xs, g1, g2, ?_, g4⟩
  clear ht h1 h2 g1 g2 g4 hd hq
  generalize p.directives = ds at h3 ⊢
  induction h3 generalizing xs with
  | nil => cases g3; exact .nil
  | cons k _ ih =>
    cases g3 with
    | cons k' ks => exact .cons (k _ k') (ih _ ks)

/-- C98 for `auto-close`: a ledger with it is loaded as if the user had closed the accounts right after opening them. -/
theorem C98_close (F : Front E L) (hL : Blind L) (hL' : DatesExist L) (hinj : Function.Injective F.hash) (ho : IsMapOrder F.ordm) (hs : IsOrder F.ord)
    (hreg : ∀ l o, F.registry l o ≠ none) (hf : ∀ k m, (F.orders k m).Perm m) (hv : F.valid = validDct) (src : E.Sources)
    {p : Parsed} (hp : OptionsOk p.options) (hd : ∀ d ∈ p.directives, DirectiveOk d ∧ DatesOk d ∧ NumbersFit (withoutLostMeta d))
    {name : Str} {accs : List Str} (hq : UsesRaw F p name (closePlugin accs))
    (order : AMap Str (Account L) → AMap Str (Account L)) (hf' : ∀ m, (order m).Perm m) :
    ∃ m xs, loadBeanfile F (.ready src (.ok p)) = .ok m ∧ m.rawXfDirectives = some xs ∧
      EndsAs F xs m (book L order (Server.bookOptions p.options) (closedAtOnce accs p.directives)) := by
  obtain ⟨ys, h1, h2⟩ := close_run hs name accs (fun d h => ⟨(hd d h).1, (hd d h).2.2⟩) []
  have ht : through (closePlugin accs) (provenanceTag name none) (p.directives.map fun d => ofDirective F.ord (withoutLostMeta d)) = some ys := by
    unfold through
    rw [h1]
    simp [closePlugin, Json.all]
  obtain ⟨m, xs, g1, g2, -, g4⟩ := C98_partial F hL hL' hinj ho hs hreg hf hv src hp (fun d h => (hd d h).2) (usesRaw_all hq) (through_vetted ht h2) h2 (by
    intro d h
    obtain ⟨e, he, hde⟩ := List.mem_flatMap.1 h
    have hk := (hd e he).2.1
    have hc : ∀ acc, DatesOk (closing e.date acc) := fun acc => ⟨hk.1, (fun l hl => by cases hl), trivial⟩
    split at hde
    · split at hde
      · rcases List.mem_cons.1 hde with rfl | hde
        · exact hk
        · rw [List.mem_singleton] at hde
          subst hde
          exact hc _
      · rw [List.mem_singleton] at hde
        subst hde
        exact hk
    · rw [List.mem_singleton] at hde
      subst hde
      exact hk) order hf'
  exact ⟨m, xs, g1, g2, g4⟩

namespace Ex

/-- A front end which finds this plugin. -/
def pluginFront (pl : Plugin) : Front Toy.ext Toy.lib := { strictFront with resolve := fun _ _ => (some pl, none, none) }

/-- Lunch. -/
def openedLunch : List Raw.Directive :=
  [Toy.mkOpen 1 bank, Toy.mkOpen 1 food, Toy.mkTxn 3 [(bank, ⟨-1250, 2⟩, nzd), (food, ⟨1250, 2⟩, nzd)]]

/-- Kind, narration and provenance of the directives which were loaded, if there was no error. -/
def loadedTexts (F : Front Toy.ext Toy.lib) (s : Server Toy.ext) : Option (List (Str × Str × List Str)) := match loadBeanfile F s with
  | .ok m => if m.error.isSome then none else m.directives.map fun l => l.map fun d =>
      (textOf (d.get (str% "dct")), textOf (d.get (str% "narration")), (d.get (str% "provenance")).elems.map textOf)
  | .error _ => none

/-- How many reports there are if booking fails. -/
def failedReports (F : Front Toy.ext Toy.lib) (s : Server Toy.ext) : Option Nat := match loadBeanfile F s with
  | .ok m => match m.error with
    | some (.booking (some rs)) => some rs.length
    | _ => none
  | .error _ => none

end Ex

/-- Non-vacuity of `C98_narration` and `C98_close` (and so of `C98_partial`): three directives for which everything asked for holds.
With the first plugin the transaction is loaded with the plugin's narration and its provenance.
With the second one booking fails at the transaction, as the account was closed. -/
example : Blind Toy.lib ∧ DatesExist Toy.lib ∧ Function.Injective Ex.strictFront.hash ∧ IsMapOrder Ex.strictFront.ordm ∧ IsOrder Ex.strictFront.ord ∧
    (∀ l o, Ex.strictFront.registry l o ≠ none) ∧ (∀ k m, (Ex.strictFront.orders k m).Perm m) ∧ Ex.strictFront.valid = validDct ∧
    OptionsOk Toy.options ∧ (∀ d ∈ Ex.openedLunch, DirectiveOk d ∧ DatesOk d ∧ NumbersFit (withoutLostMeta d)) ∧
    (∀ pl : Plugin, UsesRaw (Ex.pluginFront pl) { directives := Ex.openedLunch, options := Toy.options, plugins := [(str% "passing", none)] }
      (str% "passing") pl) ∧
    Ex.loadedTexts (Ex.pluginFront (narrationPlugin (str% "Plugins rule ok!"))) (Ex.withPlugin Ex.openedLunch) =
      some [(str% "open", [], []), (str% "open", [], []), (str% "txn", str% "Plugins rule ok!", [str% "passing"])] ∧
    Ex.failedReports (Ex.pluginFront (closePlugin [Ex.bank])) (Ex.withPlugin Ex.openedLunch) = some 1 ∧
    Ex.loadedTexts (Ex.pluginFront (closePlugin [])) (Ex.withPlugin Ex.openedLunch) =
      some [(str% "open", [], []), (str% "open", [], []), (str% "txn", [], [])] := by
  have hday : ∀ n, n = 1 ∨ n = 3 → CalendarDate (Toy.day n) := by
    rintro n (rfl | rfl) <;> exact Wire.validDate_iff.1 (by decide +kernel)
  have hbank : PlainName Ex.bank := Wire.borrowable_iff.1 (by decide +kernel)
  have hfood : PlainName Ex.food := Wire.borrowable_iff.1 (by decide +kernel)
  have hnzd : PlainName Ex.nzd := Wire.borrowable_iff.1 (by decide +kernel)
  refine ⟨Toy.lib_blind, Toy.lib_dates, fun _ _ h => h, fun l => .refl l, fun l => .refl l, fun l o h => ?_, fun k m => .refl m, rfl,
    by simp [OptionsOk, Toy.options, NoDatesEntries], ?_, fun pl => ⟨none, rfl, fun o => rfl⟩, by decide +kernel, by decide +kernel, by decide +kernel⟩
  · cases h
  · intro d hd
    simp only [Ex.openedLunch, List.mem_cons, List.not_mem_nil, or_false] at hd
    rcases hd with rfl | rfl | rfl
    · refine ⟨⟨hday 1 (by simp), ⟨by simp [Toy.mkOpen], by simp [Toy.mkOpen], by simp [Toy.mkOpen]⟩, ?_⟩,
        ⟨hday 1 (by simp), by simp [Toy.mkOpen, MetadataOk], trivial⟩, ?_⟩
      · exact ⟨hbank, by simp⟩
      · simp [NumbersFit, withoutLostMeta, withoutLost, Toy.mkOpen, metadataNumbers, variantNumbers, toleranceOf, FitsLong]
    · refine ⟨⟨hday 1 (by simp), ⟨by simp [Toy.mkOpen], by simp [Toy.mkOpen], by simp [Toy.mkOpen]⟩, ?_⟩,
        ⟨hday 1 (by simp), by simp [Toy.mkOpen, MetadataOk], trivial⟩, ?_⟩
      · exact ⟨hfood, by simp⟩
      · simp [NumbersFit, withoutLostMeta, withoutLost, Toy.mkOpen, metadataNumbers, variantNumbers, toleranceOf, FitsLong]
    · refine ⟨⟨hday 3 (by simp), ⟨by simp [Toy.mkTxn], by simp [Toy.mkTxn], by simp [Toy.mkTxn]⟩, ?_⟩,
        ⟨hday 3 (by simp), by simp [Toy.mkTxn, MetadataOk], ?_⟩, ?_⟩
      · intro q hq
        simp only [List.map_cons, List.map_nil, List.mem_cons, List.not_mem_nil, or_false] at hq
        rcases hq with rfl | rfl
        · exact ⟨hbank, by simpa using hnzd, by simp, by simp, ⟨by simp, by simp, by simp⟩⟩
        · exact ⟨hfood, by simpa using hnzd, by simp, by simp, ⟨by simp, by simp, by simp⟩⟩
      · intro q hq
        simp only [List.map_cons, List.map_nil, List.mem_cons, List.not_mem_nil, or_false] at hq
        rcases hq with rfl | rfl <;> simp [MetadataOk]
      · simp [NumbersFit, withoutLostMeta, withoutLost, Toy.mkTxn, metadataNumbers, variantNumbers, toleranceOf, FitsLong, postingNumbers]

/-- The assumption on numbers is needed: a raw plugin which changes nothing makes loading fail for a ledger which is loaded without it,
as the integer tolerance of a balance assertion is not accepted from the plugin. -/
theorem C98_false : (Ex.loadedTexts Ex.strictFront (Toy.server Ex.tolerant)).isSome = true ∧
    (Ex.loadedTexts (Ex.pluginFront identityPlugin) (Ex.withPlugin Ex.tolerant)).isNone = true := by
  decide +kernel

end Limabean
