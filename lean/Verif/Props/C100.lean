/-
C100: reports are about what was booked, also if there are plugins for booked directives.

False: such a plugin may change amounts, and nothing looks at them again. The repository has a plugin for this and a beanfile whose name
announces an error, but it is loaded without one (`C100_false`). True if these plugins leave transactions and `open` directives alone
(`C100_partial`), as the other examples do (`C100_alone`).
-/
import Verif.Clj.TestPlugins
import Verif.Props.C70
import Verif.Props.C98

namespace Limabean

open Spec Clj

variable {E : Ext} {L : BookLib}

namespace Spec

/-- A transaction. -/
def aTxn (d : Data) : Bool := isKw (d.get (str% "dct")) (str% "txn")

/-- An `open` directive. -/
def anOpen (d : Data) : Bool := isKw (d.get (str% "dct")) (str% "open")

/-- The plugins for booked directives make no transactions and `open` directives, and keep those which they get, in order. -/
def LeavesAlone (ps : List Plugin) : Prop :=
  ∀ xs l, throughAll (some (str% "booked")) ps xs = some l → l.filter aTxn = xs.filter aTxn ∧ l.filter anOpen = xs.filter anOpen

end Spec

namespace Clj

theorem postingMaps_txns (ds : List Data) : postingMaps ds = postingMaps (ds.filter aTxn) := by
  unfold postingMaps
  rw [show (fun d : Data => isKw (d.get (str% "dct")) (str% "txn")) = aTxn from rfl, List.filter_filter]
  simp

theorem registryAccs_opens (ds : List Data) : registryAccsOf ds = registryAccsOf (ds.filter anOpen) := by
  unfold registryAccsOf
  generalize ([] : AMap Str Data) = a
  induction ds generalizing a with
  | nil => rfl
  | cons d ds ih =>
    rw [List.foldl_cons, List.filter_cons]
    by_cases hd : anOpen d = true
    · rw [if_pos hd, List.foldl_cons, ih]
    · rw [if_neg hd, ih]
      unfold anOpen at hd
      rw [Bool.not_eq_true] at hd
      rw [hd, Bool.false_and, if_neg Bool.false_ne_true]

theorem registryFreq_txns (ds : List Data) : registryFreqOf ds = registryFreqOf (ds.filter aTxn) := by
  unfold registryFreqOf
  generalize ([] : AMap Str Nat) = a
  induction ds generalizing a with
  | nil => rfl
  | cons d ds ih =>
    rw [List.foldl_cons, List.filter_cons]
    by_cases hd : aTxn d = true
    · rw [if_pos hd, List.foldl_cons, ih]
    · rw [if_neg hd, ih]
      unfold aTxn at hd
      rw [if_neg hd]

theorem anOpen_added {d r : Data} (h : SpansAdded d r) : anOpen r = anOpen d := by
  unfold anOpen
  rw [h.2 _ (by decide) (by decide)]

theorem aTxn_added {d r : Data} (h : SpansAdded d r) : aTxn r = aTxn d := by
  unfold aTxn
  rw [h.2 _ (by decide) (by decide)]

theorem registryAccs_added {l ys : List Data} (h : List.Forall₂ SpansAdded l ys) : registryAccsOf ys = registryAccsOf l := by
  unfold registryAccsOf
  generalize ([] : AMap Str Data) = a
  induction h generalizing a with
  | nil => rfl
  | @cons d r l ys h _ ih =>
    rw [List.foldl_cons, List.foldl_cons, ih, h.2 (str% "dct") (by decide) (by decide), h.2 (str% "booking") (by decide) (by decide),
      h.2 (str% "acc") (by decide) (by decide)]

theorem txns_added {l ys : List Data} (h : List.Forall₂ SpansAdded l ys)
    (hp : ∀ d ∈ l.filter aTxn, (d.get (str% "provenance")).truthy = false) : ys.filter aTxn = l.filter aTxn := by
  induction h with
  | nil => rfl
  | @cons d r l ys h _ ih =>
    have ih := ih fun d hd => hp d (by
      rw [List.filter_cons]
      split
      · exact List.mem_cons_of_mem _ hd
      · exact hd)
    rw [List.filter_cons, List.filter_cons, aTxn_added h, ih]
    by_cases hd : aTxn d = true
    · rw [if_pos hd, if_pos hd, h.1 (hp d (by rw [List.filter_cons, if_pos hd]; exact List.mem_cons_self))]
    · rw [if_neg hd, if_neg hd]

theorem registryOf_same {order : AMap Str Nat → AMap Str Nat} {ds ds' : List Data} (h1 : registryAccsOf ds = registryAccsOf ds')
    (h2 : registryFreqOf ds = registryFreqOf ds') (o : Data) : registryOf order ds o = registryOf order ds' o := by
  unfold registryOf
  rw [h1, h2]

end Clj

/-- C100 if the booked plugins leave transactions and `open` directives alone, and no raw plugin made a transaction: loading has ended without
an error; then with `out` as what was booked, all reports are those of `out`. Missing: other booked plugins, see `C100_false`. -/
theorem C100_partial (F : Front E L) (hinj : Function.Injective F.hash) (ho : IsMapOrder F.ordm) (hs : IsOrder F.ord) (hE : SpanStore E)
    (hL : DatesExist L) (src : E.Sources) {p : Parsed} (hp : OptionsOk p.options) (hd : ∀ d ∈ p.directives, DatesOk d)
    (hon : OptionsNamed p.options) (hoo : (p.options.others.map Prod.fst).Nodup) (order : AMap Str Nat → AMap Str Nat)
    (hreg : F.registry = fun ds o => some (registryOf order ds o))
    {m : LoadedBeans E} (h : loadBeanfile F (.ready src (.ok p)) = .ok m) (he : m.error = none)
    (hb : LeavesAlone (bookedPlugins F p m.options))
    (ht : ∀ bs, m.bookedDirectives = some bs → ∀ b ∈ bs, aTxn b = true → (b.get (str% "provenance")).truthy = false) :
    ∃ src' k xs ds out w,
      PluginsGive E F.texts src' none (rawPlugins F p m.options) (p.directives.map fun d => ofDirective F.ord (withoutLostMeta d)) xs ∧
      ToBook F.ordm (rawPlugins F p m.options) p xs ds ∧
      book L (F.orders k) (Server.bookOptions p.options) ds = .success out w ∧ (rawPlugins F p m.options = [] → k = 4) ∧
      ∀ fs, m.inventory fs = inventory ⟨out, p.options, registryBuild order out (optionsMap p.options)⟩ fs ∧
        m.balances fs = balances ⟨out, p.options, registryBuild order out (optionsMap p.options)⟩ fs ∧
        m.incomeStatement fs = incomeStatement ⟨out, p.options, registryBuild order out (optionsMap p.options)⟩ fs ∧
        ∃ l, m.journal fs = some l ∧
          List.Forall₂ ShowsEntry l (journal ⟨out, p.options, registryBuild order out (optionsMap p.options)⟩ fs) := by
  obtain ⟨src', k, xs, ds, out, w, bs, ys, -, h2, h3, h4, h5, h6, -, -, h7, h8, -, h10, h11, h12⟩ :=
    ledger_stages F hinj ho hs hE hL src hp hd h he
  refine ⟨src', k, xs, ds, out, w, h2, h3, h4, h11, fun fs => ?_⟩
  rw [hreg] at h8
  have key : ys.filter aTxn = bs.filter aTxn ∧ registryAccsOf ys = registryAccsOf bs := by
    by_cases hbp : bookedPlugins F p m.options = []
    · rw [h6.none hbp]
      exact ⟨rfl, rfl⟩
    · obtain ⟨l, g1, g2, -, -⟩ := h6.some hbp
      obtain ⟨k1, k2⟩ := hb bs l g1
      refine ⟨?_, ?_⟩
      · rw [txns_added g2, k1]
        intro d hd
        rw [k1] at hd
        obtain ⟨hd1, hd2⟩ := List.mem_filter.1 hd
        exact ht bs h12 d hd1 hd2
      · rw [registryAccs_added g2, registryAccs_opens, k2, ← registryAccs_opens]
  have hpm : postingMaps ys = postingMaps bs := by
    rw [postingMaps_txns, key.1, ← postingMaps_txns]
  have hro : registryOf order ys m.options = registryOf order bs m.options :=
    registryOf_same key.2 (by rw [registryFreq_txns, key.1, ← registryFreq_txns]) _
  have := reports_booked (m := { m with directives := some bs, registry := some (registryOf order bs m.options) }) order h5 rfl rfl hon hoo h10 fs
  have hsel : ∀ fs, selectedMaps fs ys = selectedMaps fs bs := fun fs => by unfold selectedMaps; rw [hpm]
  have hinv : ∀ fs, m.inventory fs = ({ m with directives := some bs, registry := some (registryOf order bs m.options) } : LoadedBeans E).inventory fs := by
    intro fs
    unfold LoadedBeans.inventory
    rw [h7, h8]
    simp only [Option.getD_some, hsel, hro]
  have hj : m.journal fs = ({ m with directives := some bs, registry := some (registryOf order bs m.options) } : LoadedBeans E).journal fs := by
    unfold LoadedBeans.journal
    rw [h7]
    simp only [Option.getD_some, hsel]
  unfold LoadedBeans.balances LoadedBeans.incomeStatement at this ⊢
  rw [hinv, hinv, hinv, hj]
  exact this

namespace Clj

theorem leavesAlone_nil : LeavesAlone [] := by
  intro xs l h
  cases h
  exact ⟨rfl, rfl⟩

theorem leavesAlone_cons {p : Plugin} {ps : List Plugin} (h1 : LeavesAlone [p]) (h2 : LeavesAlone ps) : LeavesAlone (p :: ps) := by
  intro xs l h
  simp only [throughAll] at h
  obtain ⟨a, ha, hl⟩ := Option.bind_eq_some_iff.1 h
  have := h1 xs a (by simp [throughAll, ha])
  have h' := h2 a l hl
  exact ⟨h'.1.trans this.1, h'.2.trans this.2⟩

/-- A plugin leaves alone what it passes on if it puts at most something new of another kind around it. -/
theorem leavesAlone_around {p : Plugin} (hf : ∀ l, p.finish l = [])
    (hs : ∀ pre d, ∃ a b : List Data, p.step (pre ++ [d]) = a.map Out.new ++ Out.old pre.length :: b.map Out.new ∧
      ∀ x ∈ a ++ b, isErr x = false ∧ aTxn x = false ∧ anOpen x = false) : LeavesAlone [p] := by
  have key : ∀ {tag : Data → Option Data}, (∀ x y, tag x = some y → aTxn y = aTxn x ∧ anOpen y = anOpen x) → ∀ xs pre l,
      steps p tag pre xs = some l → l.filter aTxn = xs.filter aTxn ∧ l.filter anOpen = xs.filter anOpen := by
    intro tag htag xs
    induction xs with
    | nil =>
      intro pre l h
      cases h
      exact ⟨rfl, rfl⟩
    | cons d xs ih =>
      intro pre l h
      simp only [steps, Option.bind_eq_bind, Option.bind_eq_some_iff] at h
      obtain ⟨a, ha, b, hb, hl⟩ := h
      cases hl
      obtain ⟨u, v, hu, hn⟩ := hs pre d
      rw [hu] at ha
      have hnew : ∀ (w : List Data) (c : List Data), (∀ x ∈ w, isErr x = false ∧ aTxn x = false ∧ anOpen x = false) →
          Json.all (passOn tag (pre ++ [d])) (w.map Out.new) = some c → c.filter aTxn = [] ∧ c.filter anOpen = [] := by
        intro w
        induction w with
        | nil =>
          intro c _ hc
          cases hc
          exact ⟨rfl, rfl⟩
        | cons x w ihw =>
          intro c hx hc
          simp only [List.map_cons, Json.all] at hc
          cases h1 : passOn tag (pre ++ [d]) (.new x) with
          | none => simp [h1] at hc
          | some y =>
            cases h2 : Json.all (passOn tag (pre ++ [d])) (w.map Out.new) with
            | none => simp [h1, h2] at hc
            | some c' =>
              simp only [h1, h2, Option.some.injEq] at hc
              subst hc
              obtain ⟨k1, k2⟩ := ihw c' (fun z hz => hx z (by simp [hz])) h2
              obtain ⟨e1, e2, e3⟩ := hx x (by simp)
              simp only [passOn, e1, Bool.false_eq_true, if_false] at h1
              obtain ⟨t1, t2⟩ := htag x y h1
              rw [List.filter_cons, List.filter_cons, t1, t2, e2, e3]
              exact ⟨k1, k2⟩
      obtain ⟨c1, c2, hc1, hc2, rfl⟩ : ∃ c1 c2, Json.all (passOn tag (pre ++ [d])) (u.map Out.new) = some c1 ∧
          Json.all (passOn tag (pre ++ [d])) (v.map Out.new) = some c2 ∧ a = c1 ++ d :: c2 := by
        clear hnew hu
        have hn' : True := trivial
        clear hn
        induction u generalizing a with
        | nil =>
          have hold : passOn tag (pre ++ [d]) (.old pre.length) = some d := by simp [passOn]
          simp only [List.map_nil, List.nil_append, Json.all, hold] at ha
          cases h2 : Json.all (passOn tag (pre ++ [d])) (v.map Out.new) with
          | none => simp [h2] at ha
          | some c2 =>
            simp only [h2, Option.some.injEq] at ha
            exact ⟨[], c2, rfl, rfl, ha.symm⟩
        | cons x u ihu =>
          simp only [List.map_cons, List.cons_append, Json.all] at ha
          cases h1 : passOn tag (pre ++ [d]) (.new x) with
          | none => simp [h1] at ha
          | some y =>
            cases h2 : Json.all (passOn tag (pre ++ [d])) (u.map Out.new ++ Out.old pre.length :: v.map Out.new) with
            | none => simp [h1, h2] at ha
            | some a' =>
              simp only [h1, h2, Option.some.injEq] at ha
              obtain ⟨c1, c2, k1, k2, rfl⟩ := ihu a' h2
              refine ⟨y :: c1, c2, ?_, k2, ha.symm⟩
              simp only [List.map_cons, Json.all, h1, k1]
      obtain ⟨k1, k2⟩ := hnew u c1 (fun x hx => hn x (by simp [hx])) hc1
      obtain ⟨k3, k4⟩ := hnew v c2 (fun x hx => hn x (by simp [hx])) hc2
      obtain ⟨i1, i2⟩ := ih _ _ hb
      simp only [List.filter_append, List.filter_cons, k1, k2, k3, k4, i1, i2, List.nil_append]
      constructor <;> split <;> rfl
  intro xs l h
  simp only [throughAll, Option.bind_fun_some] at h
  unfold through at h
  simp only [hf, Json.all, Option.bind_eq_bind, Option.bind_some, Option.bind_eq_some_iff] at h
  obtain ⟨a, ha, hl⟩ := h
  simp only [List.append_nil, Option.pure_def, Option.some.injEq] at hl
  subst hl
  refine key ?_ xs [] a ha
  intro x y hy
  unfold aTxn anOpen
  rw [get_tag _ hy (by decide)]
  exact ⟨rfl, rfl⟩

theorem dct_eventData {d : Data} (h : isKw (d.get (str% "dct")) (str% "event") = true) : (eventData d).get (str% "dct") = .kw (str% "event") ∧
    isErr (eventData d) = false := by
  have hd : d.get (str% "dct") = .kw (str% "event") := by
    unfold isKw at h
    split at h
    · rename_i s hs
      rw [hs, beq_iff_eq.1 h]
    · cases h
  cases d with
  | map l =>
    have hh : ∃ v, AMap.get l (str% "dct") = some v ∧ v = .kw (str% "event") := by
      simp only [Data.get] at hd
      cases hl : AMap.get l (str% "dct") with
      | none => rw [hl] at hd; cases hd
      | some v => rw [hl] at hd; exact ⟨v, rfl, hd⟩
    obtain ⟨v, hv, rfl⟩ := hh
    have hk : (eventData (.map l)).get (str% "dct") = .kw (str% "event") ∧ (eventData (.map l)).get (str% "err") = .nil := by
      unfold eventData Data.selectKeys
      simp only [List.foldl_cons, List.foldl_nil, copyField, Data.has, hv, Option.isSome_some, if_true]
      rw [hd]
      by_cases hdt : (AMap.get l (str% "date")).isSome = true
      · simp only [hdt, if_true]
        simp [Data.assoc, Data.get, AMap.get_set, AMap.get]
      · simp only [hdt]
        simp [Data.assoc, Data.get, AMap.get_set, AMap.get]
    exact ⟨hk.1, by rw [isErr, hk.2]; rfl⟩
  | _ => cases hd

theorem identity_alone (name : Str) : LeavesAlone [{ identityPlugin with name := name }] :=
  leavesAlone_around (fun _ => rfl) fun pre d => ⟨[], [], by simp [identityPlugin], by simp⟩

theorem event_alone (name : Str) : LeavesAlone [{ eventPlugin with name := name }] :=
  leavesAlone_around (fun _ => rfl) fun pre d => by
    by_cases hd : isKw (d.get (str% "dct")) (str% "event") = true
    · refine ⟨[eventData d], [], by simp [eventPlugin, hd], fun x hx => ?_⟩
      rw [List.append_nil, List.mem_singleton] at hx
      subst hx
      obtain ⟨h1, h2⟩ := dct_eventData hd
      unfold aTxn anOpen
      rw [h1]
      exact ⟨h2, rfl, rfl⟩
    · exact ⟨[], [], by simp [eventPlugin, hd], by simp⟩

theorem close_alone (name : Str) (accs : List Str) : LeavesAlone [{ closePlugin accs with name := name }] :=
  leavesAlone_around (fun _ => rfl) fun pre d => by
    by_cases hd : (isKw (d.get (str% "dct")) (str% "open") && (strings (d.get (str% "acc"))).any accs.contains) = true
    · refine ⟨[], [closeData d], ?_, fun x hx => ?_⟩
      · have : (closePlugin accs).step (pre ++ [d]) = if (isKw (d.get (str% "dct")) (str% "open") &&
            (strings (d.get (str% "acc"))).any accs.contains) then [.old pre.length, .new (closeData d)] else [.old pre.length] := by simp [closePlugin]
        rw [if_pos hd] at this
        exact this
      · rw [List.nil_append, List.mem_singleton] at hx
        subst hx
        exact ⟨rfl, rfl, rfl⟩
    · refine ⟨[], [], ?_, by simp⟩
      have : (closePlugin accs).step (pre ++ [d]) = if (isKw (d.get (str% "dct")) (str% "open") &&
          (strings (d.get (str% "acc"))).any accs.contains) then [.old pre.length, .new (closeData d)] else [.old pre.length] := by simp [closePlugin]
      rw [if_neg hd] at this
      exact this

end Clj

/-- The other example plugins for booked directives satisfy what `C100_partial` asks for, in any order, under any names. -/
theorem C100_alone {ps : List Plugin} (h : ∀ q ∈ ps, (∃ name, q = { identityPlugin with name := name }) ∨ (∃ name, q = { eventPlugin with name := name }) ∨
    ∃ name accs, q = { closePlugin accs with name := name }) : LeavesAlone ps := by
  induction ps with
  | nil => exact leavesAlone_nil
  | cons q ps ih =>
    refine leavesAlone_cons ?_ (ih fun q hq => h q (by simp [hq]))
    rcases h q (by simp) with ⟨name, rfl⟩ | ⟨name, rfl⟩ | ⟨name, accs, rfl⟩
    · exact identity_alone name
    · exact event_alone name
    · exact close_alone name accs

namespace Ex

/-- A front end which checks directives, makes the registry, and finds this plugin for booked directives. -/
def afterFront (pl : Plugin) : Front Toy.ext Toy.lib := { reportingFront with valid := validDct, resolve := fun _ _ => (none, some pl, none) }

/-- Lunch, and what it is for. -/
def eventful : List Raw.Directive :=
  openedLunch ++ [{ date := Toy.day 4, variant := .event { type_ := str% "Failure", description := str% "Doomed" } }]

/-- Accounts, units and currencies in the inventory. -/
def netUnits (F : Front Toy.ext Toy.lib) (s : Server Toy.ext) : Option (List (Str × List (Dec × Str))) :=
  (reported F s fun m => (m.inventory []).map fun inv => inv.map fun x => (x.1, x.2.map fun q => (q.units, q.cur))).join

/-- The number of directives, if loading ends without an error. -/
def loadedCount (F : Front Toy.ext Toy.lib) (s : Server Toy.ext) : Option Nat :=
  reported F s fun m => if m.error.isSome then 0 else (m.directives.getD []).length

end Ex

/-- C100 is false: a plugin changes the amount of the transaction after booking, the ledger is loaded without an error, and the books are
off. Without the plugin they are not. -/
theorem C100_false : Ex.netUnits (Ex.afterFront (adjustPlugin [(Ex.bank, ⟨10, 0⟩)])) (Ex.withPlugin Ex.openedLunch) =
      some [(Ex.bank, [(⟨-250, 2⟩, Ex.nzd)]), (Ex.food, [(⟨1250, 2⟩, Ex.nzd)])] ∧
    Ex.loadedCount (Ex.afterFront (adjustPlugin [(Ex.bank, ⟨10, 0⟩)])) (Ex.withPlugin Ex.openedLunch) = some 3 ∧
    Ex.netUnits (Ex.afterFront identityPlugin) (Ex.withPlugin Ex.openedLunch) =
      some [(Ex.bank, [(⟨-1250, 2⟩, Ex.nzd)]), (Ex.food, [(⟨1250, 2⟩, Ex.nzd)])] := by
  refine ⟨?_, ?_, ?_⟩ <;> decide +kernel

/-- Non-vacuity of `C100_partial`: the plugin adds an event, and the inventory is that of what was booked. -/
example : Function.Injective (Ex.afterFront eventPlugin).hash ∧ IsMapOrder (Ex.afterFront eventPlugin).ordm ∧ IsOrder (Ex.afterFront eventPlugin).ord ∧
    SpanStore Toy.ext ∧ DatesExist Toy.lib ∧ OptionsOk Toy.options ∧ (∀ d ∈ Ex.eventful, DatesOk d) ∧ OptionsNamed Toy.options ∧
    (Toy.options.others.map Prod.fst).Nodup ∧ ((Ex.afterFront eventPlugin).registry = fun ds o => some (registryOf id ds o)) ∧
    (∀ o, LeavesAlone (bookedPlugins (Ex.afterFront eventPlugin)
      { directives := Ex.eventful, options := Toy.options, plugins := [(str% "passing", none)] } o)) ∧
    Ex.reported (Ex.afterFront eventPlugin) (Ex.withPlugin Ex.eventful)
      (fun m => m.bookedDirectives.map fun l => l.map fun b => (aTxn b, (b.get (str% "provenance")).truthy)) =
        some (some [(false, false), (false, false), (true, false), (false, false)]) ∧
    Ex.netUnits (Ex.afterFront eventPlugin) (Ex.withPlugin Ex.eventful) =
      some [(Ex.bank, [(⟨-1250, 2⟩, Ex.nzd)]), (Ex.food, [(⟨1250, 2⟩, Ex.nzd)])] ∧
    Ex.loadedCount (Ex.afterFront eventPlugin) (Ex.withPlugin Ex.eventful) = some 5 := by
  have hday : ∀ n, n = 1 ∨ n = 3 ∨ n = 4 → CalendarDate (Toy.day n) := by
    rintro n (rfl | rfl | rfl) <;> exact Wire.validDate_iff.1 (by decide +kernel)
  refine ⟨fun _ _ h => h, fun l => .refl l, fun l => .refl l, Toy.spanStore, Toy.lib_dates, by simp [OptionsOk, Toy.options, NoDatesEntries], ?_,
    by simp [OptionsNamed, Toy.options], by simp [Toy.options], rfl, fun o => event_alone _, by decide +kernel, by decide +kernel, by decide +kernel⟩
  intro d hd
  simp only [Ex.eventful, Ex.openedLunch, List.cons_append, List.nil_append, List.mem_cons, List.not_mem_nil, or_false] at hd
  rcases hd with rfl | rfl | rfl | rfl
  · exact ⟨hday 1 (by simp), by simp [Toy.mkOpen, MetadataOk], trivial⟩
  · exact ⟨hday 1 (by simp), by simp [Toy.mkOpen, MetadataOk], trivial⟩
  · exact ⟨hday 3 (by simp), by simp [Toy.mkTxn, MetadataOk], by intro p hp; simp at hp; rcases hp with rfl | rfl <;> simp [MetadataOk]⟩
  · exact ⟨hday 4 (by simp), by simp [MetadataOk], trivial⟩

end Limabean
