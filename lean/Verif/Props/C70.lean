/-
C70: the reports on a loaded beanfile are those of what was booked.

Reports are made of Clojure maps, which the front end has read from what the server has sent. Between booking and the report lie the
JSON which the server writes, what the front end reads, the resolution of source locations, and the maps of postings. What reports show
are account, units, currency and cost of each posting which was booked, with date, payee and narration of its transaction.
-/
import Verif.Proofs.BeansLemmas
import Verif.Props.C35
import Verif.Props.C38
import Verif.Props.C61
import Verif.Props.C64
import Verif.Props.C66

namespace Limabean

open Spec Clj

variable {E : Ext} {L : BookLib}

namespace Spec

/-- The entry of a journal shows date, payee and narration of the transaction, account, flag, units and currency of the posting, no cost,
and the balance. -/
structure ShowsEntry (x : Data × List Position) (e : JournalEntry) : Prop where
  row : IsRow x.1 e.row
  cost : x.1.get (str% "cost") = .nil
  bal : x.2 = e.bal

end Spec

namespace Clj

theorem rows_booked {ord : List Data → List Data} {raw : Data} {out : List Booked.Directive} {rs : List Data}
    (h : List.Forall₂ (Spec.Resolved raw) (out.map fun b => ofBooked ord (withoutLostBooked b)) rs) :
    List.Forall₂ (fun x r => IsRow x r ∧ MapWF x) (postingMaps rs) (postingRows out) := by
  have h' : List.Forall₂ (Spec.Resolved raw) ((out.map withoutLostBooked).map (ofBooked ord)) rs := by rwa [List.map_map]
  have := rows_directives h'
  rw [postingRows_lost, List.forall₂_map_right_iff] at this
  exact this.imp fun x r hx => ⟨⟨hx.1.date, hx.1.payee, hx.1.narration, hx.1.flag, hx.1.acc, hx.1.units, hx.1.cur, hx.1.cost⟩, hx.2⟩

theorem withBal_rows {xs : List Data} {rows : List Row} (h : List.Forall₂ (fun x r => IsRow x r ∧ MapWF x) xs rows) (s : Inv) :
    ∃ l, withBalOf s xs = some l ∧ List.Forall₂ ShowsEntry l (withBal s rows) := by
  induction h generalizing s with
  | nil => exact ⟨[], rfl, .nil⟩
  | @cons x r xs rows hx _ ih =>
    have hr := hx.1.withoutCost hx.2
    obtain ⟨l, h1, h2⟩ := ih (s.accumulate (positionOf r.withoutCost.posting))
    refine ⟨_, ?_, .cons (a := (x.dissoc (str% "cost"), (s.accumulate (positionOf r.withoutCost.posting)).positions)) ⟨hr, hr.cost, rfl⟩ h2⟩
    simp only [withBalOf, hr.position, h1, Option.map_some]

/-- Reports on directives which were booked and resolved. -/
theorem reports_booked {m : LoadedBeans E} {ord : List Data → List Data} {raw : Data} {out : List Booked.Directive} {rs : List Data}
    {o : LedgerOptions} (order : AMap Str Nat → AMap Str Nat)
    (h : List.Forall₂ (Spec.Resolved raw) (out.map fun b => ofBooked ord (withoutLostBooked b)) rs) (hd : m.directives = some rs)
    (hr : m.registry = some (registryOf order rs m.options)) (ho : OptionsNamed o) (hn : (o.others.map Prod.fst).Nodup)
    {key : Option Str} (hx : decode ord key (Wire.encOptions o) = some m.options) (fs : List Filter) :
    m.inventory fs = inventory ⟨out, o, registryBuild order out (optionsMap o)⟩ fs ∧
    m.balances fs = balances ⟨out, o, registryBuild order out (optionsMap o)⟩ fs ∧
    m.incomeStatement fs = incomeStatement ⟨out, o, registryBuild order out (optionsMap o)⟩ fs ∧
    ∃ l, m.journal fs = some l ∧ List.Forall₂ ShowsEntry l (journal ⟨out, o, registryBuild order out (optionsMap o)⟩ fs) := by
  obtain ⟨o1, o2, o3, o4, o5⟩ := options_names ho hn hx
  have h' : List.Forall₂ (Spec.Resolved raw) ((out.map withoutLostBooked).map (ofBooked ord)) rs := by rwa [List.map_map]
  have hb : (fun acc => methodOf (accBookingOf (registryOf order rs m.options) acc)) = (registryBuild order out (optionsMap o)).accBooking :=
    funext fun acc => accBooking_data h' order o5 _ (registryAccs_lost out).symm (registryDefault_strict ho) acc
  have hinv : ∀ fs, m.inventory fs = inventory ⟨out, o, registryBuild order out (optionsMap o)⟩ fs := by
    intro fs
    unfold LoadedBeans.inventory Clj.inventory selectedMaps reportRows buildInventory
    simp only [hd, hr, Option.getD_some, hb]
    rw [all_rows ((selected_rows (fun _ _ h => h.1) (rows_booked h) fs).imp fun _ _ h => h.1), Option.bind_some, cumulate_posting]
  refine ⟨hinv fs, ?_, ?_, ?_⟩
  · unfold LoadedBeans.balances LoadedBeans.below Clj.balances
    rw [hinv]
    simp only [List.filterMap_cons, List.filterMap_nil, o1, o2, Data.str?]
  · unfold LoadedBeans.incomeStatement LoadedBeans.below Clj.incomeStatement
    rw [hinv]
    simp only [List.filterMap_cons, List.filterMap_nil, o3, o4, Data.str?]
  · unfold LoadedBeans.journal selectedMaps Clj.journal journalBuild reportRows
    rw [hd]
    exact withBal_rows (selected_rows (fun _ _ h => h.1) (rows_booked h) fs) _

end Clj

/-- **C70**, fields: filters find in the data of a directive the fields which the directive has. -/
theorem C70_fields (ord : List Data → List Data) (d : Booked.Directive) : fieldsOf (ofBooked ord d) = directiveFields d := fields_booked ord d

/-- **C70.** Loading has ended without an error, and there are no booked plugins. What was booked is `out`, and the inventory, the
balances, the income statement and the journal of the loaded ledger, for any filters, are those of the booked directives `out` and the
options of the beanfile. What these are is the subject of C29 to C38. -/
theorem C70_reports (F : Front E L) (hinj : Function.Injective F.hash) (ho : IsMapOrder F.ordm) (hs : IsOrder F.ord) (hE : SpanStore E)
    (hL : DatesExist L) (src : E.Sources) {p : Parsed} (hp : OptionsOk p.options) (hd : ∀ d ∈ p.directives, DatesOk d)
    (hon : OptionsNamed p.options) (hoo : (p.options.others.map Prod.fst).Nodup) (order : AMap Str Nat → AMap Str Nat)
    (hreg : F.registry = fun ds o => some (registryOf order ds o))
    {m : LoadedBeans E} (h : loadBeanfile F (.ready src (.ok p)) = .ok m) (he : m.error = none) (hb : bookedPlugins F p m.options = []) :
    ∃ src' k xs ds out w,
      PluginsGive E F.texts src' none (rawPlugins F p m.options) (p.directives.map fun d => ofDirective F.ord (withoutLostMeta d)) xs ∧
      ToBook F.ordm (rawPlugins F p m.options) p xs ds ∧
      book L (F.orders k) (Server.bookOptions p.options) ds = .success out w ∧ (rawPlugins F p m.options = [] → k = 4) ∧
      ∀ fs, m.inventory fs = inventory ⟨out, p.options, registryBuild order out (optionsMap p.options)⟩ fs ∧
        m.balances fs = balances ⟨out, p.options, registryBuild order out (optionsMap p.options)⟩ fs ∧
        m.incomeStatement fs = incomeStatement ⟨out, p.options, registryBuild order out (optionsMap p.options)⟩ fs ∧
        ∃ l, m.journal fs = some l ∧
          List.Forall₂ ShowsEntry l (journal ⟨out, p.options, registryBuild order out (optionsMap p.options)⟩ fs) := by
  obtain ⟨src', k, xs, ds, out, w, bs, ys, h1, h2, h3, h4, h5, h6, -, -, h7, h8, h9, h10, h11, -⟩ := ledger_stages F hinj ho hs hE hL src hp hd h he
  refine ⟨src', k, xs, ds, out, w, h2, h3, h4, h11, ?_⟩
  rw [h6.none hb] at h7 h8
  rw [hreg] at h8
  exact reports_booked order h5 h7 h8 hon hoo h10

/-- **C70**, without plugins: the inventory of the loaded ledger gives for every account and currency the sum of the units of those
postings of the booked beanfile which the filters select. -/
theorem C70_units (F : Front E L) (hinj : Function.Injective F.hash) (ho : IsMapOrder F.ordm) (hs : IsOrder F.ord) (hE : SpanStore E)
    (hL : DatesExist L) (src : E.Sources) {p : Parsed} (hp : OptionsOk p.options) (hd : ∀ d ∈ p.directives, DatesOk d)
    (hon : OptionsNamed p.options) (hoo : (p.options.others.map Prod.fst).Nodup) (order : AMap Str Nat → AMap Str Nat)
    (hreg : F.registry = fun ds o => some (registryOf order ds o)) (hnp : p.plugins = [])
    {m : LoadedBeans E} (h : loadBeanfile F (.ready src (.ok p)) = .ok m) (he : m.error = none) :
    ∃ k out w, book L (F.orders k) (Server.bookOptions p.options) p.directives = .success out w ∧
      ∀ fs inv, m.inventory fs = some inv → ∀ acc cur,
        totalUnits Position.units ((inv.get acc).getD []) (fun x => x.cur = cur) =
          totalUnits (fun x => x.posting.units) (selection out fs) (fun x => x.posting.acc = acc ∧ x.posting.cur = cur) := by
  have hr : rawPlugins F p m.options = [] := by simp [rawPlugins, hnp]
  obtain ⟨src', k, xs, ds, out, w, -, h3, h4, -, h5⟩ := C70_reports F hinj ho hs hE hL src hp hd hon hoo order hreg h he
    (by simp [bookedPlugins, hnp])
  unfold ToBook at h3
  rw [if_pos hr] at h3
  subst h3
  refine ⟨k, out, w, h4, fun fs inv hi acc cur => ?_⟩
  rw [(h5 fs).1] at hi
  exact C34_inventory _ fs inv hi acc cur

theorem Convert.otherOptions_nodup (H : Convert.Hashes) (o : Lima.Options) : ((Convert.otherOptions H o).map Prod.fst).Nodup := by
  refine List.Nodup.sublist (l₂ := otherOptionNames) ?_ (by decide)
  unfold Convert.otherOptions
  simp only [List.map_append]
  exact ((((((((((((entry_keys _ _ _).append (entry_keys _ _ _)).append (entry_keys _ _ _)).append (entry_keys _ _ _)).append
    (entry_keys _ _ _)).append (entry_keys _ _ _)).append (entry_keys _ _ _)).append (entry_keys _ _ _)).append (entry_keys _ _ _)).append
    (entry_keys _ _ _)).append (entry_keys _ _ _)).append (entry_keys _ _ _))

/-- **C70**, from the beanfile to the reports: a beanfile without plugins which the parser accepts and which books is loaded, and the
reports are those of what was booked. -/
theorem C70_beanfile (H : Convert.Hashes) (h : FairHashes H) (F : Front E L) (hinj : Function.Injective F.hash) (ho : IsMapOrder F.ordm)
    (hs : IsOrder F.ord) (hE : SpanStore E) (hL : DatesExist L) (order : AMap Str Nat → AMap Str Nat)
    (hreg : F.registry = fun ds o => some (registryOf order ds o)) (src : E.Sources) (s : Lima.Success)
    (hd : ∀ d ∈ s.directives, SourceOk d.item) (hp : s.plugins = []) {out : List Booked.Directive} {w : List IndexedReport}
    (hb : book L (F.orders 4) (Server.bookOptions (Convert.options H s.options)) (s.directives.map (Convert.directive H)) = .success out w) :
    ∃ m, loadBeanfile F (.ready src (.ok (Convert.parsed H s))) = .ok m ∧ m.error = none ∧
      ∀ fs, m.inventory fs = inventory ⟨out, Convert.options H s.options, registryBuild order out (optionsMap (Convert.options H s.options))⟩ fs ∧
        m.balances fs = balances ⟨out, Convert.options H s.options, registryBuild order out (optionsMap (Convert.options H s.options))⟩ fs ∧
        m.incomeStatement fs =
          incomeStatement ⟨out, Convert.options H s.options, registryBuild order out (optionsMap (Convert.options H s.options))⟩ fs ∧
        ∃ l, m.journal fs = some l ∧ List.Forall₂ ShowsEntry l
          (journal ⟨out, Convert.options H s.options, registryBuild order out (optionsMap (Convert.options H s.options))⟩ fs) := by
  obtain ⟨h1, -, h3, h4⟩ := C61_wellformed H h s hd
  obtain ⟨m, l, hm, he, -⟩ := C61_loaded H h F ho hs (by simp [hreg]) hL src s hd hp hb
  refine ⟨m, hm, he, ?_⟩
  have hp' : (Convert.parsed H s).plugins = [] := by simp [Convert.parsed, hp]
  have hr : rawPlugins F (Convert.parsed H s) m.options = [] := by simp [rawPlugins, hp']
  obtain ⟨src', k, xs, ds, out', w', -, g1, g2, g3, g4⟩ := C70_reports F hinj ho hs hE hL src h3 (fun d hd => (h1 d hd).2) h4
    (Convert.otherOptions_nodup H s.options) order hreg hm he (by simp [bookedPlugins, hp'])
  unfold ToBook at g1
  rw [if_pos hr] at g1
  subst g1
  rw [g3 hr] at g2
  cases g2.symm.trans hb
  exact g4

namespace Ex

/-- A front end which makes the registry. -/
def reportingFront : Front Toy.ext Toy.lib := { front with registry := fun ds o => some (registryOf id ds o) }

/-- A report on what was loaded. -/
def reported {α : Type} (F : Front Toy.ext Toy.lib) (s : Server Toy.ext) (f : LoadedBeans Toy.ext → α) : Option α := match loadBeanfile F s with
  | .ok m => if m.error.isSome then none else some (f m)
  | .error _ => none

/-- Food bought, and a lot of shares. -/
def lots : List Raw.Directive :=
  [Toy.mkOpen 1 bank, Toy.mkOpen 1 food,
   { date := Toy.day 2
     variant := .transaction { flag := str% "*", payee := some (str% "Shop"), postings := [
       { acc := bank, units := some ⟨-5, 0⟩, cur := some nzd }, { acc := food, units := some ⟨5, 0⟩, cur := some nzd }] } },
   Toy.mkTxn 3 [(bank, ⟨-10, 0⟩, nzd), (food, ⟨10, 0⟩, nzd)]]

/-- The reports on what was loaded. -/
def reportsOf (s : Server Toy.ext) : Option (List (Option (List (Str × List Position)))) :=
  reported reportingFront s fun m => [m.inventory [], m.balances [], m.incomeStatement []]

/-- The journal of a payee: accounts, payees and balances. -/
def journalOf (s : Server Toy.ext) (payee : Str) : Option (List (Option Str × Option Str × List Position)) :=
  (reported reportingFront s fun m => (m.journal [payeeMatch (· == payee)]).map fun l =>
    l.map fun x => ((x.1.get (str% "acc")).str?, (x.1.get (str% "payee")).str?, x.2)).join

end Ex

/-- Non-vacuity of `C70_reports` and `C70_units`: a ledger is loaded, and its reports are not empty. The journal is that of one payee. -/
example : Function.Injective Ex.reportingFront.hash ∧ IsMapOrder Ex.reportingFront.ordm ∧ IsOrder Ex.reportingFront.ord ∧
    SpanStore Toy.ext ∧ DatesExist Toy.lib ∧ OptionsOk Toy.options ∧ (∀ d ∈ Ex.lots, DatesOk d) ∧ OptionsNamed Toy.options ∧
    (Toy.options.others.map Prod.fst).Nodup ∧ (Ex.reportingFront.registry = fun ds o => some (registryOf id ds o)) ∧
    Ex.reportsOf (Toy.server Ex.lots) =
      some [some [(Ex.bank, [⟨⟨-15, 0⟩, Ex.nzd, none⟩]), (Ex.food, [⟨⟨15, 0⟩, Ex.nzd, none⟩])], some [(Ex.bank, [⟨⟨-15, 0⟩, Ex.nzd, none⟩])],
        some [(Ex.food, [⟨⟨15, 0⟩, Ex.nzd, none⟩])]] ∧
    Ex.journalOf (Toy.server Ex.lots) (str% "Shop") =
      some [(some Ex.bank, some (str% "Shop"), [⟨⟨-5, 0⟩, Ex.nzd, none⟩]), (some Ex.food, some (str% "Shop"), [])] := by
  have hday : ∀ n, n = 1 ∨ n = 2 ∨ n = 3 → CalendarDate (Toy.day n) := by
    rintro n (rfl | rfl | rfl) <;> exact Wire.validDate_iff.1 (by decide +kernel)
  refine ⟨fun _ _ h => h, fun l => .refl l, fun l => .refl l, Toy.spanStore, Toy.lib_dates, by simp [OptionsOk, Toy.options, NoDatesEntries], ?_,
    by simp [OptionsNamed, Toy.options], by simp [Toy.options], rfl, by decide +kernel, by decide +kernel⟩
  intro d hd
  simp only [Ex.lots, List.mem_cons, List.not_mem_nil, or_false] at hd
  rcases hd with rfl | rfl | rfl | rfl
  · exact ⟨hday 1 (by simp), by simp [Toy.mkOpen, MetadataOk], trivial⟩
  · exact ⟨hday 1 (by simp), by simp [Toy.mkOpen, MetadataOk], trivial⟩
  · exact ⟨hday 2 (by simp), by simp [MetadataOk], by intro p hp; simp at hp; rcases hp with rfl | rfl <;> simp [MetadataOk]⟩
  · exact ⟨hday 3 (by simp), by simp [Toy.mkTxn, MetadataOk], by intro p hp; simp at hp; rcases hp with rfl | rfl <;> simp [MetadataOk]⟩

/-- Non-vacuity of `C70_beanfile`: the parsed ledger of C61 is booked and loaded, with a journal of two entries. -/
example : FairHashes Ex.hashes ∧ (∀ d ∈ Ex.read.directives, SourceOk d.item) ∧ Ex.read.plugins = [] ∧
    (∃ out w, book Toy.lib (Ex.reportingFront.orders 4) (Server.bookOptions (Convert.options Ex.hashes Ex.read.options))
      (Ex.read.directives.map (Convert.directive Ex.hashes)) = .success out w ∧ out.length = 2) ∧
    (Ex.journalOf (.ready [] (.ok (Convert.parsed Ex.hashes Ex.read))) (str% "Shop")).map List.length = some 2 :=
  ⟨Ex.hashes_fair, Ex.read_ok, rfl, ⟨_, _, rfl, by decide +kernel⟩, by decide +kernel⟩

/-- **C70**, if loading ends with an error, all reports are empty. -/
theorem C70_failed (F : Front E L) {s : Server E} {m : LoadedBeans E} (h : loadBeanfile F s = .ok m) {e : LoadError} (he : m.error = some e)
    (fs : List Filter) : m.inventory fs = some [] ∧ m.balances fs = some [] ∧ m.incomeStatement fs = some [] ∧ m.journal fs = some [] := by
  have hd := ((load_final F h).1 e he).1
  have hn : ∀ fs : List Filter, selectedMaps fs ([] : List Data) = [] := by
    intro fs
    unfold selectedMaps allOf
    split <;> rfl
  have hi : ∀ fs, m.inventory fs = some [] := by
    intro fs
    unfold LoadedBeans.inventory
    rw [hd, Option.getD_none, hn]
    rfl
  refine ⟨hi _, hi _, hi _, ?_⟩
  unfold LoadedBeans.journal
  rw [hd, Option.getD_none, hn]
  rfl

/-- Non-vacuity of `C70_failed`: a ledger which does not book. -/
example : (Ex.loadError Ex.reportingFront (Toy.server Ex.unopened)).isSome = true := by decide +kernel

end Limabean
