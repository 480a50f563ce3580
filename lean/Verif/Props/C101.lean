/-
C101: any combination of the example plugins for raw directives does what the plugins say.
-/
import Verif.Proofs.ExampleLemmas
import Verif.Props.C98

namespace Limabean

open Spec Clj

variable {E : Ext} {L : BookLib}

namespace Clj

/-! ### Plugins which look at one directive at a time -/

/-- Data which stand for a directive, whatever plugins they come from. -/
def Stands (y : Data) (d : Raw.Directive) : Prop := Writes y d ∧ Marked y

/-- What a plugin passes on for a directive: the one it has received, or data which stand for another one. -/
def MakesOf (i : Nat) (d : Raw.Directive) : Out → Raw.Directive → Prop
  | .old j, d' => j = i ∧ d' = d
  | .new y, d' => Stands y d'
  | .throws _, _ => False

/-- The plugin makes these directives of each directive. -/
structure Does (pl : Plugin) (g : Raw.Directive → List Raw.Directive) : Prop where
  step : ∀ pre y d, Stands y d → List.Forall₂ (MakesOf pre.length d) (pl.step (pre ++ [y])) (g d)
  finish : ∀ l, pl.finish l = []
  dates : ∀ d, DatesOk d → ∀ d' ∈ g d, DatesOk d'

theorem stands_tagged {y : Data} {d : Raw.Directive} (h : Stands y d) (name : Str) :
    ∃ y', provenanceTag name none y = some y' ∧ Stands y' d := by
  obtain ⟨h, hp⟩ := h
  have hm := valid_isMap h.checked
  have hex : ∃ l, (y.get (str% "provenance")).or (.vec []) = .vec l ∧ ∀ x ∈ l, RealData x ∧ levels x ≤ 123 := by
    rcases hp with hp | ⟨l, hp⟩
    · exact ⟨[], by rw [hp]; rfl, by simp⟩
    · refine ⟨l, by rw [hp]; rfl, fun x hx => ?_⟩
      have hx' : x ∈ (y.get (str% "provenance")).elems := by rw [hp]; exact hx
      have h1 := depth_elems hx'
      have h2 := depth_get y (str% "provenance")
      have h3 := h.shallow
      exact ⟨real_elems (real_find h.real _) x hx', by omega⟩
  obtain ⟨l, hl, hall⟩ := hex
  have hmem : ∀ x ∈ l ++ [Data.str name], RealData x ∧ levels x ≤ 123 := by
    intro x hx
    rcases List.mem_append.1 hx with hx | hx
    · exact hall x hx
    · rw [List.mem_singleton] at hx
      subst hx
      exact ⟨.str _, by simp [levels]⟩
  refine ⟨y.assoc (str% "provenance") (.vec (l ++ [.str name])), ?_, ?_, .inr ⟨_, by rw [get_assoc hm, if_pos rfl]⟩⟩
  · simp only [provenanceTag, hl]
    rfl
  · have hg : ∀ k, k ≠ str% "provenance" → (y.assoc (str% "provenance") (.vec (l ++ [.str name]))).get k = y.get k := by
      intro k hk
      rw [get_assoc hm, if_neg hk]
    have hr : RestAs y (y.assoc (str% "provenance") (.vec (l ++ [.str name]))) := fun k _ h2 _ => hg k h2
    have hq : PostingsAs y (y.assoc (str% "provenance") (.vec (l ++ [.str name]))) := .inl (hg _ (by decide))
    refine ⟨directiveIs_as hr hq h.content, real_assoc h.real (.vec fun x hx => (hmem x hx).1) _, ?_,
      sendDirective_as hr hq h.sendable, spansKept_as hr hq h.spans, ?_, shallow_assoc _ h.shallow ?_, ?_⟩
    · refine validDct_entries (fun k h1 _ => by rw [find_assoc hm, if_neg (Ne.symm h1)]) (fun hq => ?_) h.checked
      simpa only [optUn, find_assoc hm, if_neg (show ¬ (str% "provenance" : Str) = str% "narration" by decide)] using hq
    · unfold isErr
      rw [hg _ (by decide)]
      exact h.noError
    · have := depth_vec_le fun x hx => (hmem x hx).2
      omega
    · rw [hg _ (by decide), hg _ (by decide)]
      exact h.onlyTxn

theorem passed_on {name : Str} {pre : List Data} {y : Data} {d : Raw.Directive} (h : Stands y d) {os : List Out} {ds : List Raw.Directive}
    (hm : List.Forall₂ (MakesOf pre.length d) os ds) :
    ∃ ys, Json.all (passOn (provenanceTag name none) (pre ++ [y])) os = some ys ∧ List.Forall₂ Stands ys ds := by
  induction hm with
  | nil => exact ⟨[], rfl, .nil⟩
  | @cons o d' os ds h1 _ ih =>
    obtain ⟨ys, g1, g2⟩ := ih
    cases o with
    | old j =>
      obtain ⟨rfl, rfl⟩ := h1
      refine ⟨y :: ys, ?_, .cons h g2⟩
      simp [Json.all, passOn, g1]
    | throws m => exact h1.elim
    | new z =>
      have h1 : Stands z d' := h1
      obtain ⟨z', g3, g4⟩ := stands_tagged h1 name
      refine ⟨z' :: ys, ?_, .cons g4 g2⟩
      simp [Json.all, passOn, g1, h1.1.noError, g3]

theorem does_steps {pl : Plugin} {g : Raw.Directive → List Raw.Directive} (hp : Does pl g) (name : Str) {xs : List Data} {ds : List Raw.Directive}
    (h : List.Forall₂ Stands xs ds) (pre : List Data) :
    ∃ ys, steps pl (provenanceTag name none) pre xs = some ys ∧ List.Forall₂ Stands ys (ds.flatMap g) := by
  induction h generalizing pre with
  | nil => exact ⟨[], rfl, .nil⟩
  | @cons y d xs ds h1 _ ih =>
    obtain ⟨ys, g1, g2⟩ := ih (pre ++ [y])
    obtain ⟨zs, g3, g4⟩ := passed_on (name := name) h1 (hp.step pre y d h1)
    refine ⟨zs ++ ys, ?_, ?_⟩
    · simp only [steps, g1, g3, Option.bind_eq_bind, Option.bind_some]
      rfl
    · rw [List.flatMap_cons]
      exact List.rel_append g4 g2

theorem does_all {ps : List Plugin} {gs : List (Raw.Directive → List Raw.Directive)} (hp : List.Forall₂ Does ps gs) {xs : List Data}
    {ds : List Raw.Directive} (h : List.Forall₂ Stands xs ds) :
    ∃ ys, throughVetted (validDct true) none ps xs = some ys ∧ List.Forall₂ Stands ys (gs.foldl (fun ds g => ds.flatMap g) ds) := by
  induction hp generalizing xs ds with
  | nil => exact ⟨xs, rfl, h⟩
  | @cons pl g ps gs h1 _ ih =>
    obtain ⟨ys, g1, g2⟩ := does_steps h1 pl.name h []
    obtain ⟨zs, g3, g4⟩ := ih g2
    refine ⟨zs, ?_, g4⟩
    have ht : through pl (provenanceTag pl.name none) xs = some ys := by
      simp [through, g1, h1.finish, Json.all]
    simp only [throughVetted, ht, Option.bind_some]
    rw [vetted_all, Option.bind_some]
    · exact g3
    · intro y hy
      obtain ⟨d, -, hd⟩ := forall₂_right (List.Forall₂.flip g2) hy
      exact hd.1.checked

theorem does_name {pl : Plugin} {g : Raw.Directive → List Raw.Directive} (h : Does pl g) (name : Str) : Does { pl with name := name } g :=
  ⟨h.step, h.finish, h.dates⟩

/-! ### The example plugins -/

theorem dct_stands {y : Data} {d : Raw.Directive} (h : Writes y d) : y.get (str% "dct") = .kw (sortName d.variant) := by
  have hv := h.content.variant
  cases hd : d.variant <;> simp only [withoutLostMeta, hd] at hv <;> exact hv.1

theorem isKw_stands {y : Data} {d : Raw.Directive} (h : Writes y d) (k : Str) : isKw (y.get (str% "dct")) k = decide (sortName d.variant = k) := by
  rw [dct_stands h]
  by_cases hk : sortName d.variant = k <;> simp [isKw, hk]

theorem stillMarked {y : Data} {d : Raw.Directive} (h : Stands y d) {k : Str} (hk : k ≠ str% "provenance") (v : Data) : Marked (y.assoc k v) := by
  have := h.2
  unfold Marked at this ⊢
  rw [get_assoc (valid_isMap h.1.checked), if_neg (Ne.symm hk)]
  exact this

theorem does_identity : Does identityPlugin fun d => [d] := by
  refine ⟨fun pre y d h => ?_, fun _ => rfl, by simp⟩
  have : identityPlugin.step (pre ++ [y]) = [.old pre.length] := by simp [identityPlugin]
  rw [this]
  exact .cons ⟨rfl, rfl⟩ .nil

theorem does_narration (s : Str) : Does (narrationPlugin s) fun d => [withNarration s d] := by
  refine ⟨fun pre y d h => ?_, fun _ => rfl, ?_⟩
  · have : (narrationPlugin s).step (pre ++ [y]) = if isKw (y.get (str% "dct")) (str% "txn") then [.new (y.assoc (str% "narration") (.str s))]
        else [.old pre.length] := by simp [narrationPlugin]
    rw [this, isKw_stands h.1]
    by_cases hk : sortName d.variant = str% "txn"
    · rw [if_pos (by simpa using hk)]
      exact .cons ⟨writes_narration h.1 (by rw [dct_stands h.1, hk]) s, stillMarked h (by decide) _⟩ .nil
    · rw [if_neg (by simpa using hk)]
      refine .cons ⟨rfl, ?_⟩ .nil
      unfold withNarration
      split
      · rename_i t ht
        rw [ht] at hk
        exact absurd rfl hk
      · rfl
  · intro d hd d' hd'
    rw [List.mem_singleton] at hd'
    subst hd'
    unfold withNarration
    split
    · rename_i t ht
      obtain ⟨h1, h2, h3⟩ := hd
      rw [ht] at h3
      exact ⟨h1, h2, h3⟩
    · exact hd

theorem does_close (accs : List Str) : Does (closePlugin accs) (Example.autoClose accs).makes := by
  refine ⟨fun pre y d h => ?_, fun _ => rfl, ?_⟩
  · have : (closePlugin accs).step (pre ++ [y]) = if isKw (y.get (str% "dct")) (str% "open") && (strings (y.get (str% "acc"))).any accs.contains then
        [.old pre.length, .new (closeData y)] else [.old pre.length] := by simp [closePlugin]
    rw [this, isKw_stands h.1]
    simp only [Example.makes]
    cases hd : d.variant with
    | opn o =>
      have hv := h.1.content.variant
      simp only [withoutLostMeta, hd] at hv
      have ha : y.get (str% "acc") = .str o.acc := hv.2.1
      simp only [sortName, decide_true, Bool.true_and, ha, strings, List.any_cons, List.any_nil, Bool.or_false, List.contains_iff_mem]
      by_cases hc : o.acc ∈ accs
      · rw [if_pos hc, if_pos hc]
        refine .cons ⟨rfl, rfl⟩ (.cons ?_ .nil)
        have hdate : y.get (str% "date") = .date d.date := h.1.content.date
        have hplain : PlainName o.acc := by
          obtain ⟨-, kind, h2, h3⟩ := h.1.sendable
          rw [dct_stands h.1, hd] at h2
          cases h2
          exact h3.names (str% "acc") (by simp only [sortName]; decide) _ ha
        have hcal : CalendarDate d.date := by
          have := real_find h.1.real (str% "date")
          rw [hdate] at this
          cases this with
          | date h => exact h
        have e : closeData y = .map [(str% "date", .date d.date), (str% "dct", .kw (str% "close")), (str% "acc", .str o.acc)] := by
          rw [closeData, ha, hdate]
        show Stands (closeData y) _
        rw [e]
        exact ⟨writes_close hcal hplain, .inl rfl⟩
      · rw [if_neg hc, if_neg hc]
        exact .cons ⟨rfl, rfl⟩ .nil
    | _ =>
      simp only
      rw [if_neg (by simp [sortName])]
      exact .cons ⟨rfl, rfl⟩ .nil
  · intro d hd d' hd'
    simp only [Example.makes] at hd'
    have hc : ∀ acc, DatesOk (closing d.date acc) := fun acc => ⟨hd.1, by simp [closing, MetadataOk], trivial⟩
    split at hd'
    · split at hd'
      · simp only [List.mem_cons, List.not_mem_nil, or_false] at hd'
        rcases hd' with rfl | rfl
        · exact hd
        · exact hc _
      · rw [List.mem_singleton] at hd'
        exact hd' ▸ hd
    · rw [List.mem_singleton] at hd'
      exact hd' ▸ hd

theorem does_tag (kind : Str) {tag : Str} (ht : PlainName tag) :
    Does (Example.tagMatching kind tag).plugin (Example.tagMatching kind tag).makes := by
  refine ⟨fun pre y d h => ?_, fun _ => rfl, ?_⟩
  · have : (Example.tagMatching kind tag).plugin.step (pre ++ [y]) = if isKw (y.get (str% "dct")) kind then
        [.new (y.assoc (str% "tags") (conjTag (y.get (str% "tags")) tag))] else [.old pre.length] := by simp [Example.plugin, tagPlugin]
    rw [this, isKw_stands h.1]
    simp only [Example.makes]
    by_cases hk : sortName d.variant = kind
    · rw [if_pos (by simpa using hk), if_pos hk]
      exact .cons ⟨writes_tag h.1 ht, stillMarked h (by decide) _⟩ .nil
    · rw [if_neg (by simpa using hk), if_neg hk]
      exact .cons ⟨rfl, rfl⟩ .nil
  · intro d hd d' hd'
    simp only [Example.makes, List.mem_singleton] at hd'
    subst hd'
    split
    · exact hd
    · exact hd

theorem metadataOk_merge {md : Option (List (Str × MetaValue))} (h : MetadataOk md) {m : List (Str × MetaValue)} (hm : Settable m) :
    MetadataOk (some (m.foldr (fun p l => AMap.set l p.1 p.2) (md.getD []))) := by
  intro l hl
  cases hl
  induction m with
  | nil =>
    cases md with
    | none => exact ⟨by simp, by simp⟩
    | some l => exact h l rfl
  | cons p m ih =>
    obtain ⟨h1, h2⟩ := ih fun p hp => hm p (by simp [hp])
    refine ⟨nodup_keys_set h1 _ _, fun kv hkv d hd => ?_⟩
    rcases AMap.mem_set hkv with rfl | hkv
    · have := (hm p (by simp)).2.2.2.1
      rw [show p.2 = .date d from hd] at this
      exact this
    · exact h2 kv hkv d hd

theorem does_metadata {config : AMap Str (List (Str × MetaValue))} (hc : ∀ kind m, config.get kind = some m → Settable m) :
    Does (Example.setMetadata config).plugin (Example.setMetadata config).makes := by
  refine ⟨fun pre y d h => ?_, fun _ => rfl, ?_⟩
  · have hstep : (Example.setMetadata config).plugin.step (pre ++ [y]) = match y.get (str% "dct") with
        | .kw k => match (AMap.mapV (fun m : List (Str × MetaValue) => m.map fun p => (p.1, ofMeta p.2)) config).get k with
          | some m => [.new (y.assoc (str% "metadata") (((y.get (str% "metadata")).or (.map [])).mergeMap (.map m)))]
          | none => [.old pre.length]
        | _ => [.old pre.length] := by
      rw [show AMap.mapV (fun m : List (Str × MetaValue) => m.map fun p => (p.1, ofMeta p.2)) config =
        config.map fun q => (q.1, q.2.map fun p => (p.1, ofMeta p.2)) from rfl]
      simp only [Example.plugin, metadataPlugin, List.getLast?_append, List.getLast?_singleton, Option.some_or, List.length_append,
        List.length_singleton, Nat.add_sub_cancel]
      rfl
    rw [hstep, dct_stands h.1]
    simp only [AMap.get_mapV]
    simp only [Example.makes]
    cases hg : config.get (sortName d.variant) with
    | none => exact .cons ⟨rfl, rfl⟩ .nil
    | some m => exact .cons ⟨writes_metadata h.1 (hc _ m hg), stillMarked h (by decide) _⟩ .nil
  · intro d hd d' hd'
    simp only [Example.makes] at hd'
    split at hd'
    · rename_i m hm
      rw [List.mem_singleton] at hd'
      subst hd'
      exact ⟨hd.1, metadataOk_merge hd.2.1 (hc _ m hm), hd.2.2⟩
    · rw [List.mem_singleton] at hd'
      exact hd' ▸ hd

theorem settable_dup : Settable [(str% "dup", .null)] := by
  intro p hp
  simp only [List.mem_singleton] at hp
  subst hp
  exact ⟨Wire.borrowable_iff.1 (by decide +kernel), by decide, by decide, trivial, by simp [metaNumbers]⟩

theorem marked_copy {y : Data} {d : Raw.Directive} (h : Stands y d) : Marked (copyData y) := by
  have hm := isMap_dissoc (valid_isMap h.1.checked) (str% "span")
  have := h.2
  unfold Marked copyData at *
  rw [get_assoc (isMap_assoc hm _ _), if_neg (by decide), get_assoc hm, if_neg (by decide), get_dissoc_real h.1.real _ _ (by decide)]
  exact this

theorem does_duplicate : Does duplicatePlugin Example.duplicateTxns.makes := by
  refine ⟨fun pre y d h => ?_, fun _ => rfl, ?_⟩
  · have : duplicatePlugin.step (pre ++ [y]) = if isKw (y.get (str% "dct")) (str% "txn") then [.new (copyData y), .old pre.length]
        else [.old pre.length] := by simp [duplicatePlugin]
    rw [this, isKw_stands h.1]
    simp only [Example.makes]
    cases hd : d.variant with
    | transaction t =>
      simp only
      rw [if_pos (by simp [sortName])]
      exact .cons ⟨writes_copy h.1 hd, marked_copy h⟩ (.cons ⟨rfl, rfl⟩ .nil)
    | _ =>
      simp only
      rw [if_neg (by simp [sortName])]
      exact .cons ⟨rfl, rfl⟩ .nil
  · intro d hd d' hd'
    simp only [Example.makes] at hd'
    split at hd'
    · rename_i t ht
      simp only [List.mem_cons, List.not_mem_nil, or_false] at hd'
      rcases hd' with rfl | rfl
      · obtain ⟨h1, h2, h3⟩ := hd
        rw [ht] at h3
        refine ⟨h1, metadataOk_merge h2 settable_dup, ?_⟩
        simp only [copyOf, withMetadata, ht]
        intro p hp
        obtain ⟨q, hq, rfl⟩ := List.mem_map.1 hp
        exact h3 q hq
      · exact hd
    · rw [List.mem_singleton] at hd'
      exact hd' ▸ hd

theorem does_example {e : Example} (he : e.Ok) : Does e.plugin e.makes := by
  cases e with
  | identity => exact does_identity
  | setNarration s => exact does_narration s
  | autoClose accs => exact does_close accs
  | tagMatching kind tag => exact does_tag kind he
  | setMetadata config => exact does_metadata he
  | duplicateTxns => exact does_duplicate

theorem does_dates {ps : List Plugin} {gs : List (Raw.Directive → List Raw.Directive)} (hp : List.Forall₂ Does ps gs) {ds : List Raw.Directive}
    (h : ∀ d ∈ ds, DatesOk d) : ∀ d ∈ gs.foldl (fun ds g => ds.flatMap g) ds, DatesOk d := by
  induction hp generalizing ds with
  | nil => exact h
  | cons h1 _ ih =>
    refine ih fun d hd => ?_
    obtain ⟨e, he, hde⟩ := List.mem_flatMap.1 hd
    exact h1.dates e (h e he) d hde

end Clj

/-- C101 for ledgers whose numbers satisfy the client's specification: the ledger uses some of the example plugins for raw directives, in
some order, and is loaded as if the user had written what they make of it. Missing: other numbers, as for `C98_partial`. -/
theorem C101_partial (F : Front E L) (hL : Blind L) (hL' : DatesExist L) (hinj : Function.Injective F.hash) (ho : IsMapOrder F.ordm) (hs : IsOrder F.ord)
    (hreg : ∀ l o, F.registry l o ≠ none) (hf : ∀ k m, (F.orders k m).Perm m) (hv : F.valid = validDct) (src : E.Sources)
    {p : Parsed} (hp : OptionsOk p.options) (hd : ∀ d ∈ p.directives, DirectiveOk d ∧ DatesOk d ∧ NumbersFit (withoutLostMeta d))
    {ps : List Plugin} (hq : UsesAllRaw F p ps) {es : List Example} (hes : ∀ e ∈ es, e.Ok)
    (hps : List.Forall₂ (fun q e => ∃ name, q = { Example.plugin e with name := name }) ps es)
    (order : AMap Str (Account L) → AMap Str (Account L)) (hf' : ∀ m, (order m).Perm m) :
    ∃ m xs, loadBeanfile F (.ready src (.ok p)) = .ok m ∧ m.rawXfDirectives = some xs ∧
      EndsAs F xs m (book L order (Server.bookOptions p.options) (madeBy es p.directives)) := by
  have hdo : List.Forall₂ Does ps (es.map Example.makes) := by
    clear hq
    induction hps with
    | nil => exact .nil
    | @cons q e ps es h1 _ ih =>
      obtain ⟨name, rfl⟩ := h1
      exact .cons (does_name (does_example (hes e (by simp))) name) (ih fun e he => hes e (by simp [he]))
  have hst : List.Forall₂ Stands (p.directives.map fun d => ofDirective F.ord (withoutLostMeta d)) p.directives := by
    have : ∀ ds : List Raw.Directive, (∀ d ∈ ds, DirectiveOk d ∧ DatesOk d ∧ NumbersFit (withoutLostMeta d)) →
        List.Forall₂ Stands (ds.map fun d => ofDirective F.ord (withoutLostMeta d)) ds := by
      intro ds
      induction ds with
      | nil => intro _; exact .nil
      | cons d ds ih =>
        intro h
        exact .cons ⟨writes_read hs (h d (by simp)).1 (h d (by simp)).2.2, .inl (noProvenance_ofDirective _ _)⟩ (ih fun d hd => h d (by simp [hd]))
    exact this _ hd
  obtain ⟨ys, h1, h2⟩ := does_all hdo hst
  have e : (es.map Example.makes).foldl (fun ds g => ds.flatMap g) p.directives = madeBy es p.directives := by
    rw [List.foldl_map]
    rfl
  rw [e] at h2
  obtain ⟨m, xs, g1, g2, -, g4⟩ := C98_partial F hL hL' hinj ho hs hreg hf hv src hp (fun d h => (hd d h).2) hq h1
    (h2.imp fun _ _ h => h.1) (e ▸ does_dates hdo fun d h => (hd d h).2.1) order hf'
  exact ⟨m, xs, g1, g2, g4⟩

namespace Ex

/-- Plugins which tag `open` directives, copy transactions, set metadata of transactions, and close nothing. -/
def someExamples : List Example :=
  [.tagMatching (str% "open") (str% "tag-youre-it"), .duplicateTxns, .setMetadata [(str% "txn", [(str% "sure", .bool true)])], .autoClose []]

/-- A front end which finds them. -/
def examplesFront : Front Toy.ext Toy.lib :=
  let find : Data → Option Plugin := fun q =>
    (([str% "a", str% "b", str% "c", str% "d"].zip someExamples).find? fun e => e.1 == textOf (q.get (str% "name"))).map fun e => e.2.plugin
  { strictFront with resolve := fun q _ => (find q, none, none) }

/-- A ledger which uses them. -/
def examplesParsed : Parsed :=
  { directives := openedLunch, options := Toy.options, plugins := [(str% "a", none), (str% "b", none), (str% "c", none), (str% "d", none)] }

/-- Kind, tags, names of metadata, and provenance of the directives which were loaded, if there was no error. -/
def loadedExtras (F : Front Toy.ext Toy.lib) (s : Server Toy.ext) : Option (List (Str × List Str × List Str × List Str)) := match loadBeanfile F s with
  | .ok m => if m.error.isSome then none else m.directives.map fun l => l.map fun d =>
      (textOf (d.get (str% "dct")), (d.get (str% "tags")).elems.map textOf,
        (match d.get (str% "metadata") with | .map l => l.map Prod.fst | _ => []), (d.get (str% "provenance")).elems.map textOf)
  | .error _ => none

end Ex

/-- Non-vacuity of `C101_partial` (what is asked for of the toy library, the front end and the directives is shown beside C98): four
plugins are used. What they make is loaded: tags, metadata and a copy of the transaction are there, and provenance says who made what. -/
example : UsesAllRaw Ex.examplesFront Ex.examplesParsed
      ((([str% "a", str% "b", str% "c", str% "d"] : List Str).zip Ex.someExamples).map fun e => { e.2.plugin with name := e.1 }) ∧
    (∀ e ∈ Ex.someExamples, e.Ok) ∧ (madeBy Ex.someExamples Ex.openedLunch).length = 4 ∧
    Ex.loadedExtras Ex.examplesFront (.ready [] (.ok Ex.examplesParsed)) =
      some [(str% "open", [str% "tag-youre-it"], [], [str% "a"]), (str% "open", [str% "tag-youre-it"], [], [str% "a"]),
        (str% "txn", [], [str% "dup", str% "sure"], [str% "b", str% "c"]), (str% "txn", [], [str% "sure"], [str% "c"])] := by
  refine ⟨⟨by simp [Ex.someExamples], fun o => ⟨?_, rfl, rfl⟩⟩, ?_, by decide +kernel, by decide +kernel⟩
  · intro q _
    rfl
  · intro e he
    simp only [Ex.someExamples, List.mem_cons, List.not_mem_nil, or_false] at he
    rcases he with rfl | rfl | rfl | rfl
    · exact Wire.borrowable_iff.1 (by decide +kernel)
    · trivial
    · intro kind m hm p hp
      simp only [AMap.get] at hm
      split at hm
      · cases hm
        simp only [List.mem_singleton] at hp
        subst hp
        exact ⟨Wire.borrowable_iff.1 (by decide +kernel), by decide, by decide, trivial, by simp [metaNumbers]⟩
      · cases hm
    · trivial

end Limabean
