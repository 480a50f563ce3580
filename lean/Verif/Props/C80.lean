/-
C80: a ledger which uses auto_accounts is loaded as if the user had opened the accounts.

For ledgers whose numbers satisfy the client's specification (`C80_partial`); for others loading fails as soon as there is a plugin
(`C54_refused`).
-/
import Verif.Proofs.AutoLemmas

namespace Limabean

open Spec Clj

variable {E : Ext} {L : BookLib}

namespace Spec

/-- The ledger uses auto_accounts and no other plugin, and the plugin is found. -/
def UsesAuto (F : Front E L) (p : Parsed) (name : Str) : Prop :=
  ∃ config, p.plugins = [(name, config)] ∧ ∀ o, F.resolve (ofPlugin (name, config)) o = (some autoPlugin, none, none)

/-- What booking receives in place of the directive: its data, or, if the plugin has made it, the data of an open directive which names the
plugin and has a span. -/
def HandedOver (ord : List Data → List Data) (name : Str) (d : Raw.Directive) (x : Data) : Prop :=
  x = ofDirective ord (withoutLostMeta d) ∨ ∃ date acc sp, d = autoOpen date acc ∧ x = .map [(str% "dct", .kw (str% "open")),
    (str% "date", .date date), (str% "acc", .str acc), (str% "metadata", .map [(str% "auto", .nil)]), (str% "provenance", .vec [.str name]),
    (str% "span-p", ofSpan sp)]

/-- How loading must end if booking the directives `ds` ends so. -/
def EndsLike (F : Front E L) (name : Str) (ds : List Raw.Directive) (m : LoadedBeans E) (outcome : Outcome) : Prop :=
  ∃ xs, m.rawXfDirectives = some xs ∧ List.Forall₂ (HandedOver F.ord name) ds xs ∧ match outcome with
  | .success out _ => m.error = none ∧ ∃ l out', m.directives = some l ∧ List.Forall₂ (BookedLike .upToOrder) (out.map withoutLostBooked) out' ∧
      List.Forall₂ (Resolved (.vec xs)) (out'.map (ofBooked F.ord)) l
  | .failure es => ∃ rs a b b', m.error = some (.booking (some rs)) ∧ List.Forall₂ (Reports E xs) (a ++ b') rs ∧
      es = a ++ b ∧ b.Perm b' ∧ ∀ rep ∈ b, rep.reason = .unusedNoBalance
  | .panic => m.error = some (.booking (some []))

end Spec

namespace Clj

theorem dates_auto {ds : List Raw.Directive} (hd : ∀ d ∈ ds, DatesOk d) {d : Raw.Directive} (h : d ∈ autoAccounts .inPlace ds) : DatesOk d := by
  rcases auto_member h with h | ⟨e, he, a, -, rfl⟩
  · exact hd d h
  · refine ⟨(hd e he).1, fun l hl => ?_, trivial⟩
    cases hl
    simp

theorem booked_maps (ord : List Data → List Data) (d : Booked.Directive) : Spec.IsMap (ofBooked ord d) ∧ PostingsAreMaps (ofBooked ord d) := by
  refine ⟨trivial, fun ps hps p hp => ?_⟩
  rw [booked_postings] at hps
  cases hv : d.variant with
  | transaction t =>
    rw [hv] at hps
    cases hps
    obtain ⟨q, -, rfl⟩ := List.mem_map.1 hp
    trivial
  | _ => rw [hv] at hps; cases hps

/-- What the client has after the raw plugins. -/
def afterAuto (F : Front E L) (n : Nat) (src : E.Sources) (p : Parsed) (o : Data) (xs : List Data) : LoadedBeans E :=
  { pod := ready n src (.ok p), plugins := some (resolvedOf F p o), options := o
    rawDirectives := some (p.directives.map fun d => ofDirective F.ord (withoutLostMeta d)), rawXfDirectives := some xs }

theorem book_keeps (F : Front E L) {m m' : LoadedBeans E} (h : bookRawDirectives F m = .ok m') : m'.rawXfDirectives = m.rawXfDirectives := by
  unfold bookRawDirectives at h
  dsimp only at h
  split at h
  · cases h; rfl
  · split at h <;> (cases h; rfl)

/-- Loading up to the raw plugins. -/
theorem load_auto (F : Front E L) (hinj : Function.Injective F.hash) (ho : IsMapOrder F.ordm) (hs : IsOrder F.ord) (hv : F.valid = validDct)
    (src : E.Sources) {p : Parsed} (hp : OptionsOk p.options)
    (hd : ∀ d ∈ p.directives, DirectiveOk d ∧ DatesOk d ∧ NumbersFit (withoutLostMeta d)) {name : Str} (hq : UsesAuto F p name) :
    ∃ o n' src' xs, n' ≤ 5 ∧ List.Forall₂ (HandedOver F.ord name) (autoAccounts .inPlace p.directives) xs ∧
      List.Forall₂ (Sent F.ord name) (autoAccounts .inPlace p.directives) xs ∧
      pluginsOfKind false (resolvedOf F p o) = [] ∧
      loadBeanfile F (.ready src (.ok p)) = match bindAll (afterAuto F n' src' p o xs) ((stages F).drop 3) with
        | .error pod => .error (some pod)
        | .ok m => .ok m := by
  obtain ⟨config, hq1, hq2⟩ := hq
  have hres : ∀ o, resolvedOf F p o = [resolvePlugin F o (ofPlugin (name, config))] := fun o => by simp [resolvedOf, hq1]
  obtain ⟨o, -, h⟩ := prepared F ho hs src hp (fun d h => (hd d h).2.1) fun o r hr => by
    rw [hres, List.mem_singleton] at hr
    subst hr
    simp [resolvePlugin, hq2]
  have hraw : pluginsOfKind true (resolvedOf F p o) = [{ autoPlugin with name := name }] := by
    rw [hres]
    simp only [pluginsOfKind, resolvePlugin, hq2, List.filterMap_cons, if_true, Option.map_some, List.filterMap_nil]
    rfl
  have hbooked : pluginsOfKind false (resolvedOf F p o) = [] := by
    rw [hres]
    simp [pluginsOfKind, resolvePlugin, hq2]
  obtain ⟨n', src', xs, h1, h2, h3⟩ := auto_transformed F hinj ho hs hv name (n := 4) (by omega) src (.ok p) fun d h => (hd d h).2.2
  refine ⟨o, n', src', xs, h1, h3, h3, hbooked, ?_⟩
  have e : runPluginsStage F true (afterRaw F src p o none) = .ok (afterAuto F n' src' p o xs) := by
    have hf : xs.filter (fun d => (d.get (str% "err")).truthy) = [] := by
      rw [List.filter_eq_nil_iff]
      intro x hx
      obtain ⟨d, -, hdx⟩ := forall₂_right h3 hx
      rcases hdx with rfl | ⟨date, acc, sp, -, rfl⟩
      · have := isErr_ofDirective F.ord (withoutLostMeta d)
        simpa [isErr] using this
      · exact Bool.false_ne_true
    simp only [runPluginsStage, afterRaw, Option.getD_some, hraw, List.isEmpty_cons, Bool.false_eq_true, if_false, if_true, h2, hf,
      List.isEmpty_nil, afterAuto]
  have hl : loadBeanfile F (.ready src (.ok p)) = match bindAll (afterRaw F src p o none) ((stages F).drop 2) with
        | .error pod => .error (some pod)
        | .ok m => .ok m := by
    unfold loadBeanfile
    rw [start_ready F ho]
    dsimp only
    rw [← List.take_append_drop 2 (stages F), bindAll_append, h]
    rfl
  rw [hl]
  simp only [stages, List.drop_succ_cons, List.drop_zero]
  rw [bindAll, if_neg (by simp [afterRaw]), e]

end Clj

/-- C80 for ledgers whose numbers satisfy the client's specification: loading a ledger with auto_accounts ends as booking the ledger in
which the accounts are opened, each before the first transaction which uses it; what is shown of a directive is its booked form, and
reports are about these directives. Missing: other numbers, for which loading with any plugin fails (`C54_refused`). -/
theorem C80_partial (F : Front E L) (hL : Blind L) (hL' : DatesExist L) (hinj : Function.Injective F.hash) (ho : IsMapOrder F.ordm) (hs : IsOrder F.ord)
    (hreg : ∀ l o, F.registry l o ≠ none) (hf : ∀ k m, (F.orders k m).Perm m) (hv : F.valid = validDct) (src : E.Sources)
    {p : Parsed} (hp : OptionsOk p.options) (hd : ∀ d ∈ p.directives, DirectiveOk d ∧ DatesOk d ∧ NumbersFit (withoutLostMeta d))
    {name : Str} (hq : UsesAuto F p name) {ds : List Raw.Directive} (hc : Completed p.directives ds)
    (order : AMap Str (Account L) → AMap Str (Account L)) (hf' : ∀ m, (order m).Perm m) :
    ∃ m, loadBeanfile F (.ready src (.ok p)) = .ok m ∧ EndsLike F name ds m (book L order (Server.bookOptions p.options) ds) := by
  obtain rfl := C39_unique _ _ _ (C39_completed _) hc
  obtain ⟨o, n', src', xs, hn, hx, hsent, hk, hload⟩ := load_auto F hinj ho hs hv src hp hd hq
  obtain ⟨es, h4, h5⟩ := auto_sent hs ho (fun d h => auto_ok (fun d h => (hd d h).1) h) hsent
  have hdeep : NotTooDeep xs := by
    intro x hx'
    obtain ⟨d, -, h⟩ := forall₂_right hx hx'
    rcases h with rfl | ⟨date, acc, sp, rfl, rfl⟩
    · have := depth_ofDirective hs (withoutLostMeta d)
      omega
    · simp [levels, levelsEntries, levelsAll, depth_ofSpan]
  have h6 := C58_attached hL .reread order (F.orders n') hf' (hf n') (Server.bookOptions p.options) h5
  have hdec : Wire.decMethod (requestEntries F.ordm (str% "book") (bookParams (some xs)) (n' + 1)) = some (.book (some es)) := by
    rw [bookParams, Option.map_some, Option.getD_some, decMethod_book, h4]
    rfl
  simp only [stages, List.drop_succ_cons, List.drop_zero] at hload
  rw [bindAll, if_neg (by simp [afterAuto])] at hload
  cases hb : book L order (Server.bookOptions p.options) (autoAccounts .inPlace p.directives) with
  | success out w =>
    rw [hb] at h6
    cases hb' : book L (F.orders n') (Server.bookOptions p.options) es with
    | success out' w' =>
      rw [hb'] at h6
      obtain ⟨h7, -⟩ := h6
      have hdates := book_dates hL' (fun d h => dates_auto (fun d h => (hd d h).2.1) h) hb
      have h8 := book_success F ho hs (n := n') (k := n') (by omega) (src := src') (p := p) (xs := some xs) (ds := some es) hdec hb' (by
          intro c hc'
          obtain ⟨b, hb, hbc⟩ := forall₂_right h7 hc'
          exact booked_reread_dates hbc (hdates b hb)) (notTooDeep_iff.1 hdeep)
      obtain ⟨l, h9, h10⟩ := C42_directives (booked := (out'.map withoutLostBooked).map (ofBooked F.ord)) (.vec xs) (by
        intro b hb
        obtain ⟨d, -, rfl⟩ := List.mem_map.1 hb
        exact booked_maps F.ord d)
      have e : bookRawDirectives F (afterAuto F n' src' p o xs) =
          .ok { afterAuto F (n' + 1) src' p o xs with bookedDirectives := some l } := by
        unfold bookRawDirectives afterAuto
        simp only [show (ready n' src' (.ok p)).book F (some xs) = _ from h8]
        have h9' : resolveDirectives ((bookedAnswer F.ord out').get (str% "directives")) (.vec xs) = .vec l := by
          rw [← h9, List.map_map]
          rfl
        simp only [Option.some_or, Option.getD_some, h9']
        rfl
      rw [e] at hload
      cases hr : F.registry l o with
      | none => exact absurd hr (hreg _ _)
      | some r =>
        refine ⟨{ afterAuto F (n' + 1) src' p o xs with bookedDirectives := some l, directives := some l, registry := some r }, ?_,
          xs, rfl, hx, rfl, l, _, rfl, booked_reread_all h7, h10⟩
        rw [hload]
        simp only [bindAll, afterAuto, Option.isSome_none, Bool.false_eq_true, if_false, runPluginsStage, Option.getD_some, hk, List.isEmpty_nil,
          if_true, setDirectives, Option.none_or, setRegistry, hr]
    | failure es' => rw [hb'] at h6; exact h6.elim
    | panic => rw [hb'] at h6; exact h6.elim
  | failure rs =>
    rw [hb] at h6
    cases hb' : book L (F.orders n') (Server.bookOptions p.options) es with
    | success out' w' => rw [hb'] at h6; exact h6.elim
    | panic => rw [hb'] at h6; exact h6.elim
    | failure es' =>
      rw [hb'] at h6
      obtain ⟨a, b, b', rfl, rfl, h7, h8⟩ := h6
      obtain ⟨m, rs, h9, h10, -, h11⟩ := C41_partial F ho hf (n := n') (k := n') (by omega) (src := src') (p := p)
        (m := (afterAuto F n' src' p o xs)) rfl rfl h4 hdeep hb'
      rw [h9] at hload
      simp only [bindAll, h10, Option.isSome_some, if_true] at hload
      refine ⟨m, hload, xs, ?_, hx, rs, a, b, b', h10, h11, rfl, h7, h8⟩
      rw [book_keeps F h9]
      rfl
  | panic =>
    rw [hb] at h6
    cases hb' : book L (F.orders n') (Server.bookOptions p.options) es with
    | success out' w' => rw [hb'] at h6; exact h6.elim
    | failure es' => rw [hb'] at h6; exact h6.elim
    | panic =>
      have h8 := invoke_dies F ho (n := n') (k := n') (by omega) (src := src') (parsed := .ok p) (m := str% "book") (p := bookParams (some xs)) hdec (by
        simp [Server.healthy, Server.bookRequest, hb']) (notTooDeep_iff.1 hdeep)
      have e : bookRawDirectives F (afterAuto F n' src' p o xs) = .ok { afterAuto F n' src' p o xs with
          pod := { nextId := n' + 1, server := none, served := n' }, error := some (.booking (some [])) } := by
        unfold bookRawDirectives afterAuto
        have h9 : Pod.book F (ready n' src' (.ok p)) (some xs) = ({ nextId := n' + 1, server := none, served := n' }, some { ok := .nil }) := by
          rw [show Pod.book F (ready n' src' (.ok p)) (some xs) = ((Pod.invoke F (ready n' src' (.ok p)) (str% "book") (bookParams (some xs))).1,
            (Pod.invoke F (ready n' src' (.ok p)) (str% "book") (bookParams (some xs))).2.map mapError) from rfl, ready, h8]
          rfl
        simp only [h9]
        rfl
      rw [e] at hload
      refine ⟨{ afterAuto F n' src' p o xs with
          pod := { nextId := n' + 1, server := none, served := n' }, error := some (.booking (some [])) }, ?_, xs, rfl, hx, rfl⟩
      rw [hload]
      simp only [bindAll, Option.isSome_some, if_true]

namespace Ex

/-- A front end which knows auto_accounts. -/
def autoFront : Front Toy.ext Toy.lib := { strictFront with resolve := fun _ _ => (some autoPlugin, none, none) }

/-- A server for these directives, with the plugin auto_accounts. -/
def withAuto (ds : List Raw.Directive) : Server Toy.ext :=
  .ready [] (.ok { directives := ds, options := Toy.options, plugins := [(str% "auto", none)] })

/-- Nobody opens the accounts. -/
def unopenedLunch : List Raw.Directive := [Toy.mkTxn 3 [(bank, ⟨-1250, 2⟩, nzd), (food, ⟨1250, 2⟩, nzd)], Toy.mkBal 4 bank ⟨-1250, 2⟩ nzd]

/-- Kind, account and provenance of the directives which were loaded, if there was no error. -/
def loadedOpens (F : Front Toy.ext Toy.lib) (s : Server Toy.ext) : Option (List (Str × Str × List Str)) := match loadBeanfile F s with
  | .ok m => if m.error.isSome then none else m.directives.map fun l => l.map fun d =>
      (textOf (d.get (str% "dct")), textOf (d.get (str% "acc")), (d.get (str% "provenance")).elems.map textOf)
  | .error _ => none

end Ex

/-- C80 is false for other numbers: with an integer tolerance the ledger is booked, but it is not loaded. -/
theorem C80_false : (∃ out w, book Toy.lib id (Server.bookOptions Toy.options) (autoAccounts .inPlace Ex.tolerant) = .success out w) ∧
    (match Ex.loadError Ex.autoFront (Ex.withAuto Ex.tolerant) with | some (.pluginException true) => true | _ => false) = true := by
  refine ⟨?_, by decide +kernel⟩
  have h : (match book Toy.lib id (Server.bookOptions Toy.options) (autoAccounts .inPlace Ex.tolerant) with
    | .success _ _ => true | _ => false) = true := by decide +kernel
  generalize book Toy.lib id (Server.bookOptions Toy.options) (autoAccounts .inPlace Ex.tolerant) = r at h
  cases r with
  | success out w => exact ⟨out, w, rfl⟩
  | _ => cases h

/-- Non-vacuity of `C80_partial`: a ledger which meets all hypotheses, and what is loaded; without the plugin it is not. -/
example : Blind Toy.lib ∧ DatesExist Toy.lib ∧ Function.Injective Ex.autoFront.hash ∧ IsMapOrder Ex.autoFront.ordm ∧ IsOrder Ex.autoFront.ord ∧
    (∀ l o, Ex.autoFront.registry l o ≠ none) ∧ (∀ k m, (Ex.autoFront.orders k m).Perm m) ∧ Ex.autoFront.valid = validDct ∧
    OptionsOk Toy.options ∧ (∀ d ∈ Ex.unopenedLunch, DirectiveOk d ∧ DatesOk d ∧ NumbersFit (withoutLostMeta d)) ∧
    UsesAuto Ex.autoFront { directives := Ex.unopenedLunch, options := Toy.options, plugins := [(str% "auto", none)] } (str% "auto") ∧
    Ex.loadedOpens Ex.autoFront (Ex.withAuto Ex.unopenedLunch) = some [(str% "open", Ex.bank, [str% "auto"]), (str% "open", Ex.food, [str% "auto"]),
      (str% "txn", [], []), (str% "balance", Ex.bank, [])] ∧
    (Ex.loadedOpens Ex.strictFront (Toy.server Ex.unopenedLunch)).isNone = true := by
  have hday : ∀ n, n = 3 ∨ n = 4 → CalendarDate (Toy.day n) := by
    rintro n (rfl | rfl) <;> exact Wire.validDate_iff.1 (by decide +kernel)
  have hbank : PlainName Ex.bank := Wire.borrowable_iff.1 (by decide +kernel)
  have hfood : PlainName Ex.food := Wire.borrowable_iff.1 (by decide +kernel)
  have hnzd : PlainName Ex.nzd := Wire.borrowable_iff.1 (by decide +kernel)
  refine ⟨Toy.lib_blind, Toy.lib_dates, fun _ _ h => h, fun l => .refl l, fun l => .refl l, fun l o h => ?_, fun k m => .refl m, rfl,
    by simp [OptionsOk, Toy.options, NoDatesEntries], ?_, ⟨none, rfl, fun o => rfl⟩, by decide +kernel, by decide +kernel⟩
  · cases h
  · intro d hd
    simp only [Ex.unopenedLunch, List.mem_cons, List.not_mem_nil, or_false] at hd
    rcases hd with rfl | rfl
    · refine ⟨⟨hday 3 (by simp), ⟨by simp [Toy.mkTxn], by simp [Toy.mkTxn], by simp [Toy.mkTxn]⟩, ?_⟩,
        ⟨hday 3 (by simp), by simp [Toy.mkTxn, MetadataOk], ?_⟩, ?_⟩
      · intro q hq
        simp only [List.map_cons, List.map_nil, List.mem_cons, List.not_mem_nil, or_false] at hq
        rcases hq with rfl | rfl
        · exact ⟨hbank, by simpa using hnzd, by simp, by simp, ⟨by simp, by simp, by simp⟩⟩
        · exact ⟨hfood, by simpa using hnzd, by simp, by simp, ⟨by simp, by simp, by simp⟩⟩
      · intro q hq
        simp only [List.map_cons, List.map_nil, List.mem_cons, List.not_mem_nil, or_false] at hq
        rcases hq with rfl | rfl <;> simp [MetadataOk]
      · simp [NumbersFit, withoutLostMeta, withoutLost, Toy.mkTxn, metadataNumbers, variantNumbers, toleranceOf, FitsLong, postingNumbers]
    · refine ⟨⟨hday 4 (by simp), ⟨by simp [Toy.mkBal], by simp [Toy.mkBal], by simp [Toy.mkBal]⟩, hbank, hnzd⟩,
        ⟨hday 4 (by simp), by simp [Toy.mkBal, MetadataOk], trivial⟩, ?_⟩
      simp [NumbersFit, withoutLostMeta, withoutLost, Toy.mkBal, metadataNumbers, variantNumbers, toleranceOf, FitsLong]

end Limabean
