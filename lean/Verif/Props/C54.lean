/-
C54: the directives which the server sends satisfy the specification which is asserted when plugins run.

False: the specification wants the tolerance of a balance to be a big decimal, and integers to have at most 64 bits; an integer tolerance
and a large integer arrive otherwise (`C54_false`, `C54_false_large`). These are the only exceptions (`C54_exact`, `C54_booked_exact`). A ledger
with such a directive cannot be loaded with raw plugins, whatever they do (`C54_refused`).
-/
import Verif.Proofs.ValidLemmas
import Verif.Proofs.PluginLemmas
import Verif.Props.C41
import Verif.Props.C44

namespace Limabean

open Clj Spec

variable {E : Ext} {L : BookLib}

/-- C54, exactly: a directive as the client reads it satisfies the specification if and only if its integers have at most 64 bits and the
tolerance, if it is a balance with one, has decimals. (Metadata whose key is `dct` or `booking` arrive as `nil`, see C44.) -/
theorem C54_exact {ord : List Data → List Data} (ho : IsOrder ord) {d : Raw.Directive} (h : DatesOk d) :
    ∃ x, decode ord none (Wire.encDirective d) = some x ∧ (validDct true x = true ↔ NumbersFit (withoutLostMeta d)) :=
  ⟨_, C44_exact ho h, valid_raw ho _⟩

/-- The same for booked directives. -/
theorem C54_booked_exact {ord : List Data → List Data} (ho : IsOrder ord) {d : Booked.Directive} (h : BookedDatesOk d) :
    ∃ x, decode ord none (Wire.encBookedDirective d) = some x ∧ (validDct false x = true ↔ BookedNumbersFit (withoutLostBooked d)) :=
  ⟨_, C44_booked_exact ho h, valid_booked ho _⟩

/-- C54 for directives whose integers have at most 64 bits and whose tolerance has decimals. Missing: other numbers, for which it is false. -/
theorem C54_partial {ord : List Data → List Data} (ho : IsOrder ord) {d : Raw.Directive} (h : DatesOk d) (hk : KeysOk d)
    (hn : NumbersFit d) : ∃ x, decode ord none (Wire.encDirective d) = some x ∧ validDct true x = true :=
  ⟨_, C44_partial ho h hk, (valid_raw ho _).2 hn⟩

/-- The same for booked directives. -/
theorem C54_booked_partial {ord : List Data → List Data} (ho : IsOrder ord) {d : Booked.Directive} (h : BookedDatesOk d)
    (hk : BookedKeysOk d) (hn : BookedNumbersFit d) :
    ∃ x, decode ord none (Wire.encBookedDirective d) = some x ∧ validDct false x = true :=
  ⟨_, C44_booked_partial ho h hk, (valid_booked ho _).2 hn⟩

/-- `2010-01-05 balance Assets:Bank:Current 100 ~ 1 NZD`. -/
def Ex.roughly : Raw.Directive :=
  { date := Toy.day 5, variant := .balance { acc := Ex.current, units := ⟨100, 0⟩, cur := Ex.nzd, tolerance := some ⟨1, 0⟩ } }

/-- `2010-01-05 balance Assets:Bank:Current 10000000000000000000 NZD`. -/
def Ex.large : Raw.Directive :=
  { date := Toy.day 5, variant := .balance { acc := Ex.current, units := ⟨10000000000000000000, 0⟩, cur := Ex.nzd, tolerance := none } }

/-- `2010-01-05 balance Assets:Bank:Current 100 ~ 1.0 NZD`. -/
def Ex.nearly : Raw.Directive :=
  { date := Toy.day 5, variant := .balance { acc := Ex.current, units := ⟨100, 0⟩, cur := Ex.nzd, tolerance := some ⟨10, 1⟩ } }

/-- C54 is false: a balance with an integer tolerance does not satisfy the specification. -/
theorem C54_false : DatesOk Ex.roughly ∧ (decode id none (Wire.encDirective Ex.roughly)).map (validDct true) = some false := by
  refine ⟨⟨Wire.validDate_iff.1 (by decide +kernel), by simp [MetadataOk, Ex.roughly], trivial⟩, by decide +kernel⟩

/-- C54 is false: neither does a balance of 10^19 units. -/
theorem C54_false_large : DatesOk Ex.large ∧ (decode id none (Wire.encDirective Ex.large)).map (validDct true) = some false := by
  refine ⟨⟨Wire.validDate_iff.1 (by decide +kernel), by simp [MetadataOk, Ex.large], trivial⟩, by decide +kernel⟩

/-- Non-vacuity of `C54_partial`. -/
example : DatesOk Ex.nearly ∧ KeysOk Ex.nearly ∧ NumbersFit Ex.nearly := by
  refine ⟨⟨Wire.validDate_iff.1 (by decide +kernel), by simp [MetadataOk, Ex.nearly], trivial⟩, ⟨by simp [NotLost, Ex.nearly], ?_⟩, ?_⟩
  · intro t ht; cases ht
  · simp [NumbersFit, Ex.nearly, metadataNumbers, variantNumbers, toleranceOf, FitsLong]

namespace Clj

variable {hash : Nat → Nat} {valid : Data → Bool} {phase : Option Str}

/-- Only these identities, and those from `N` on, are known. -/
def Knows (hash : Nat → Nat) (N : Nat) (S : List Nat) (w : World) : Prop :=
  N ≤ w.next ∧ ∀ h ∈ w.known, ∃ t, h = hash t ∧ (N ≤ t ∨ t ∈ S)

theorem feed_knows {N : Nat} {S : List Nat} {tag : Data → Option Data} {got : List Obj} {sink : World → Obj → Option World}
    (hs : ∀ w o w', Knows hash N S w → sink w o = some w' → Knows hash N S w') (xs : List Out) {w w' : World} (hk : Knows hash N S w)
    (h : feed hash valid tag got sink xs w = some w') : Knows hash N S w' := by
  induction xs generalizing w with
  | nil => cases h; exact hk
  | cons x xs ih =>
    simp only [feed, Option.bind_eq_bind, Option.bind_eq_some_iff] at h
    obtain ⟨⟨w1, o1⟩, h1, ⟨w2, o2⟩, h2, w3, h3, h4⟩ := h
    have k1 : Knows hash N S w1 := by
      cases x with
      | old i =>
        simp only [outObj, Option.map_eq_some_iff] at h1
        obtain ⟨o, -, h1⟩ := h1
        cases h1
        exact hk
      | throws m => cases h1
      | new d =>
        simp only [outObj, Option.some.injEq] at h1
        cases h1
        exact ⟨Nat.le_succ_of_le hk.1, hk.2⟩
    have k2 : Knows hash N S w2 := by
      unfold tagUnseen at h2
      split at h2
      · cases h2; exact k1
      · split at h2
        · cases h2
        · split at h2
          · cases h2
            refine ⟨Nat.le_succ_of_le k1.1, fun x hx => ?_⟩
            rcases List.mem_cons.1 hx with rfl | hx
            · exact ⟨_, rfl, .inl k1.1⟩
            · exact k1.2 x hx
          · cases h2
    exact ih (hs _ _ _ k2 h3) h4

theorem push_knows {N : Nat} {S : List Nat} (ps : List Plugin) (n : Nat) (w : World) (o : Obj) (w' : World) (hk : Knows hash N S w)
    (h : push hash valid phase n ps w o = some w') : Knows hash N S w' := by
  induction ps generalizing n w o w' with
  | nil => cases h; exact hk
  | cons p ps ih =>
    simp only [push] at h
    exact feed_knows (fun a b c => ih (n + 1) a b c) _ (show Knows hash N S (w.receive n o) from hk) h

/-- A directive which does not satisfy the specification makes running plugins throw. -/
theorem pushAll_refused (hinj : Function.Injective hash) (ps : List Plugin) {N : Nat} {S : List Nat} {os : List Obj} {w : World}
    (hk : Knows hash N S w) (hn : (os.map Obj.tok).Nodup) (hlt : ∀ o ∈ os, o.tok < N) (hS : ∀ o ∈ os, o.tok ∉ S) {o : Obj} (ho : o ∈ os)
    (he : isErr o.data = false) (hv : valid o.data = false) : pushAll hash valid phase ps os w = none := by
  induction os generalizing w S with
  | nil => cases ho
  | cons a os ih =>
    simp only [pushAll, Option.bind_eq_bind]
    cases h1 : meetUnseen hash valid w a with
    | none => rfl
    | some w1 =>
      have k1 : Knows hash N (a.tok :: S) w1 := by
        have k : Knows hash N (a.tok :: S) w := ⟨hk.1, fun x hx => by
          obtain ⟨t, h, h'⟩ := hk.2 x hx
          exact ⟨t, h, h'.imp id (List.mem_cons_of_mem _)⟩⟩
        unfold meetUnseen at h1
        split at h1
        · cases h1; exact k
        · split at h1
          · cases h1
            refine ⟨k.1, fun x hx => ?_⟩
            rcases List.mem_cons.1 hx with rfl | hx
            · exact ⟨_, rfl, .inr (List.mem_cons_self ..)⟩
            · exact k.2 x hx
          · cases h1
      simp only [Option.bind_some]
      cases h2 : push hash valid phase 0 ps w1 a with
      | none => rfl
      | some w2 =>
        have k2 := push_knows ps 0 w1 a w2 k1 h2
        simp only [Option.bind_some]
        simp only [List.map_cons, List.nodup_cons] at hn
        rcases List.mem_cons.1 ho with rfl | ho
        · exfalso
          unfold meetUnseen at h1
          rw [if_neg, if_neg (by simp [hv])] at h1
          · cases h1
          · rw [Bool.or_eq_true, not_or]
            refine ⟨by simpa [isErr] using he, ?_⟩
            rw [List.contains_iff_mem]
            intro hc
            obtain ⟨t, h, h'⟩ := hk.2 _ hc
            have := hinj h
            subst this
            rcases h' with h' | h'
            · exact absurd (hlt o (by simp)) (by omega)
            · exact hS o (by simp) h'
        · refine ih k2 hn.2 (fun x hx => hlt x (by simp [hx])) (fun x hx hm => ?_) ho
          rcases List.mem_cons.1 hm with hm | hm
          · exact hn.1 (hm ▸ List.mem_map_of_mem hx)
          · exact hS x (by simp [hx]) hm

theorem runPlugins_refused (hinj : Function.Injective hash) (ps : List Plugin) {ds : List Data} {d : Data} (hd : d ∈ ds)
    (he : isErr d = false) (hv : valid d = false) : runPlugins hash valid phase ps ds.length (objects ds) = none := by
  obtain ⟨i, hi⟩ := List.mem_iff_getElem?.1 hd
  have hm : ({ tok := i, data := d } : Obj) ∈ objects ds := by
    unfold objects
    exact List.mem_map.2 ⟨(d, i), List.mem_zipIdx_iff_getElem?.2 hi, rfl⟩
  have ht : (objects ds).map Obj.tok = List.range ds.length := by
    unfold objects
    rw [List.map_map]
    change ds.zipIdx.map Prod.snd = _
    rw [List.zipIdx_map_snd, List.range_eq_range']
  unfold runPlugins
  rw [pushAll_refused hinj ps (N := ds.length) (S := []) (o := { tok := i, data := d }) ⟨le_refl _, by simp⟩
    (by rw [ht]; exact List.nodup_range) ?_ (by simp) hm he hv]
  · rfl
  · intro o ho
    have : o.tok ∈ (objects ds).map Obj.tok := List.mem_map_of_mem ho
    rw [ht] at this
    exact List.mem_range.1 this

theorem isErr_ofDirective (ord : List Data → List Data) (d : Raw.Directive) : isErr (ofDirective ord d) = false := by
  have : (ofDirective ord d).get (str% "err") = .nil := by
    unfold ofDirective
    cases d.variant <;> simp [Data.get, ofVariant, get_append, get_optEntry, AMap.get]
  simp [isErr, this, Data.truthy]

end Clj

/-- What follows: if some directive of the ledger has an integer of more than 64 bits or an integer tolerance, and there is a raw plugin,
then whatever the plugins do, loading the ledger ends with the error that a raw plugin has thrown an exception; there are no booked
directives. -/
theorem C54_refused (F : Front E L) (ho : IsMapOrder F.ordm) (hs : IsOrder F.ord) (hh : Function.Injective F.hash)
    (hv : F.valid = validDct) (src : E.Sources) {p : Parsed} (hp : OptionsOk p.options) (hd : ∀ d ∈ p.directives, DatesOk d)
    (hr : ∀ q ∈ p.plugins, ∀ o, (F.resolve (ofPlugin q) o).2.2 = none)
    (hx : ∃ q ∈ p.plugins, ∀ o, (F.resolve (ofPlugin q) o).1 ≠ none) (hb : ∃ d ∈ p.directives, ¬ NumbersFit (withoutLostMeta d)) :
    ∃ m, loadBeanfile F (.ready src (.ok p)) = .ok m ∧ m.error = some (.pluginException true) ∧ m.bookedDirectives = none ∧
      m.directives = none := by
  have hr' : ∀ o, ∀ r ∈ resolvedOf F p o, r.err = none := by
    intro o r h
    simp only [resolvedOf, List.map_map, List.mem_map] at h
    obtain ⟨q, hq, rfl⟩ := h
    exact hr q hq o
  obtain ⟨o, -, h⟩ := prepared F ho hs src hp hd hr'
  have hps : (pluginsOfKind true (resolvedOf F p o)).isEmpty = false := by
    obtain ⟨q, hq, hne⟩ := hx
    rw [Bool.eq_false_iff]
    intro hc
    rw [List.isEmpty_iff] at hc
    cases hres : (F.resolve (ofPlugin q) o).1 with
    | none => exact hne o hres
    | some pl =>
      have hm : resolvePlugin F o (ofPlugin q) ∈ resolvedOf F p o := List.mem_map_of_mem (List.mem_map_of_mem hq)
      have := (List.filterMap_eq_nil_iff.1 hc) _ hm
      simp [resolvePlugin, hres] at this
  obtain ⟨d, hd1, hd2⟩ := hb
  have hrun : transformed F true (pluginsOfKind true (resolvedOf F p o)) (ready 4 src (.ok p))
      (p.directives.map fun d => ofDirective F.ord (withoutLostMeta d)) = (ready 4 src (.ok p), none) := by
    unfold transformed
    rw [runPlugins_refused hh _ (d := ofDirective F.ord (withoutLostMeta d)) (List.mem_map.2 ⟨d, hd1, rfl⟩) (isErr_ofDirective _ _)]
    rw [hv, Bool.eq_false_iff]
    intro hc
    exact hd2 ((valid_raw hs _).1 hc)
  unfold loadBeanfile
  rw [start_ready F ho]
  simp only
  have hsplit : stages F = (stages F).take 2 ++ (stages F).drop 2 := (List.take_append_drop 2 _).symm
  have happ : ∀ (fs gs : List (Stage E)) (m m' : LoadedBeans E), bindAll m fs = .ok m' → bindAll m (fs ++ gs) = bindAll m' gs := by
    intro fs gs
    induction fs with
    | nil => intro m m' h; cases h; rfl
    | cons f fs ih =>
      intro m m' h
      simp only [List.cons_append, bindAll] at h ⊢
      split at h
      · rename_i hc; rw [if_pos hc]; exact ih m m' h
      · rename_i hc
        rw [if_neg hc]
        split at h
        · cases h
        · rename_i m1 h1; exact ih m1 m' h
  rw [hsplit, happ _ _ _ _ h]
  simp only [stages, List.drop_succ_cons, List.drop_zero, bindAll, Option.isSome_none, Bool.false_eq_true, if_false]
  simp only [runPluginsStage, Option.getD_some, hps, Bool.false_eq_true, if_false, if_true, hrun, Option.isSome_some]
  exact ⟨_, rfl, rfl, rfl, rfl⟩

/-- A front end with a plugin which passes on what it gets, and the specification. -/
def Ex.strictFront : Front Toy.ext Toy.lib := { Ex.passingFront with valid := validDct }

/-- Non-vacuity of `C54_refused`, and its contrast: with a plugin which does nothing, the tolerance `1` makes loading fail, `1.0` does not. -/
example : (match Ex.loadError Ex.strictFront (Ex.withPlugin [Ex.roughly]) with | some (.pluginException true) => true | _ => false) = true ∧
    (match Ex.loadError Ex.strictFront (Ex.withPlugin [Ex.nearly]) with | some (.pluginException true) => true | _ => false) = false := by
  decide +kernel

end Limabean
