/-
C108: a beanfile is loaded exactly if nothing is wrong with it, and then it shows what it says.

From what the parser has read to what the user sees, by the reference semantics of `Spec.Faults` and `Spec.Output` alone: server,
protocol, front end and booking disappear. What the user learns if something is wrong is too little (C41).
-/
import Verif.Props.C41
import Verif.Props.C60
import Verif.Props.C70
import Verif.Props.C62
import Verif.Proofs.ContinuedRun

namespace Limabean

open Clj Spec

variable {E : Ext} {L : BookLib}

namespace Spec

/-- What the parser has read, as the server books it. -/
def readLedger (H : Convert.Hashes) (s : Lima.Success) : List Raw.Directive := s.directives.map (Convert.directive H)

/-- The options which matter to booking. -/
def readOptions (H : Convert.Hashes) (s : Lima.Success) : BookOptions := Server.bookOptions (Convert.options H s.options)

end Spec

namespace Clj

theorem book_none_panic (F : Front E L) (ho : IsMapOrder F.ordm) {n : Nat} (hn : n < 2147483647) (src : E.Sources)
    {p : Parsed} (hb : book L (F.orders n) (Server.bookOptions p.options) p.directives = .panic) :
    (ready n src (.ok p)).book F none = ({ nextId := n + 1, server := none, served := n }, some {}) := by
  unfold Pod.book ready
  rw [invoke_dies F ho hn (decMethod_plain (x := .book none) (by simp))]
  · rfl
  · simp [Server.healthy, Server.bookRequest, hb]

theorem silent_panic (F : Front E L) (ho : IsMapOrder F.ordm) (hs : IsOrder F.ord) (src : E.Sources) {p : Parsed}
    (hp : OptionsOk p.options) (hd : ∀ d ∈ p.directives, DatesOk d) (hr : NoRawPlugins F p)
    (hb : book L (F.orders 4) (Server.bookOptions p.options) p.directives = .panic) :
    ∃ m, loadBeanfile F (.ready src (.ok p)) = .ok m ∧ m.error = some (.booking (some [])) ∧
      ∃ t, (t = [] ∨ t = str% "nil") ∧ (printErrors F m.pod m.error).2 = ([str% "Booking failed\n", t], true) := by
  obtain ⟨o, -, h⟩ := prepared F ho hs src hp hd fun o => (noPlugins hr o).1
  have h1 := book_none_panic F ho (n := 4) (by omega) src hb
  refine ⟨{ pod := { nextId := 5, server := none, served := 4 }, plugins := some (resolvedOf F p o), options := o
            rawDirectives := some (p.directives.map fun d => ofDirective F.ord (withoutLostMeta d))
            error := some (.booking (some [])) }, ?_, rfl, silent_print F ho (n := 5) (by omega) src (parsed := .ok p) (k := 4) (.inr rfl)⟩
  have : bindAll { pod := ready 1 src (.ok p) } (stages F) = .ok
      { pod := { nextId := 5, server := none, served := 4 }, plugins := some (resolvedOf F p o), options := o
        rawDirectives := some (p.directives.map fun d => ofDirective F.ord (withoutLostMeta d))
        error := some (.booking (some [])) } := by
    rw [← List.take_append_drop 2 (stages F), bindAll_append, h]
    simp only [stages, List.drop_succ_cons, List.drop_zero, bindAll, Option.isSome_none, Bool.false_eq_true, if_false, runPluginsStage,
      Option.getD_some, (noPlugins hr o).2, List.isEmpty_nil, if_true]
    simp only [bookRawDirectives, h1, Data.truthy, Bool.false_eq_true, if_false]
    rfl
  unfold loadBeanfile
  rw [start_ready F ho]
  dsimp only
  rw [this]

end Clj

/-- **C108**, nothing is wrong: the beanfile is loaded, and nothing is printed. The ledger has the directives of the reference semantics, in
order, with the places in the beanfile from which they stem. The inventory, with any filters, has in each account and currency the sum of
the postings of the reference semantics which the filters select; without filters, at each account together with those below, what an
assertion at the end of the beanfile would have to say. (That an inventory can be made is the subject of C60.) -/
theorem C108_loaded (hL : L.Lawful) (hL' : DatesExist L) (H : Convert.Hashes) (h : FairHashes H) (F : Front E L)
    (hinj : Function.Injective F.hash) (ho : IsMapOrder F.ordm) (hs : IsOrder F.ord) (hf : ∀ k m, (F.orders k m).Perm m) (hE : SpanStore E)
    (order : AMap Str Nat → AMap Str Nat) (hreg : F.registry = fun ds o => some (registryOf order ds o)) (src : E.Sources) (s : Lima.Success)
    (hd : ∀ d ∈ s.directives, SourceOk d.item) (hp : s.plugins = [])
    (ha : audit L (readOptions H s).bookingMethod (readOptions H s).tolerance (readLedger H s) = some ([], [])) :
    ∃ m l t, loadBeanfile F (.ready src (.ok (Convert.parsed H s))) = .ok m ∧ m.error = none ∧
      (printErrors F m.pod m.error).2 = ([], true) ∧ m.directives = some l ∧
      List.Forall₂ (LoadedAs F.ord (readLedger H s))
        ((returned L (readOptions H s).bookingMethod (readOptions H s).tolerance (readLedger H s)).map withoutLostBooked) l ∧
      (∀ fs inv, m.inventory fs = some inv → ∀ acc cur,
        totalUnits Position.units ((inv.get acc).getD []) (fun x => x.cur = cur) =
          totalUnits (fun x => x.posting.units)
            (selection (returned L (readOptions H s).bookingMethod (readOptions H s).tolerance (readLedger H s)) fs)
            (fun x => x.posting.acc = acc ∧ x.posting.cur = cur)) ∧
      Tally.run (readOptions H s).bookingMethod (readOptions H s).tolerance 0 (Tally.init L) (readLedger H s) = some (t, []) ∧
      ∀ inv, m.inventory [] = some inv → ∀ acc cur, subtotal inv cur acc = (t.total acc cur).val := by
  have hb := (C82_returned L hL (F.orders 4) (hf 4) (readOptions H s) (readLedger H s) _ _).2 ⟨ha, rfl, rfl⟩
  obtain ⟨m, l, h1, h2, h3, h4⟩ := C61_loaded H h F ho hs (by simp [hreg]) hL' src s hd hp hb
  obtain ⟨m', h1', -, h5⟩ := C70_beanfile H h F hinj ho hs hE hL' order hreg src s hd hp hb
  cases h1.symm.trans h1'
  obtain ⟨t, h6, -, -, h7, -⟩ := accepted_led hL (hf 4) hb
  refine ⟨m, l, t, h1, h2, ?_, h3, h4, ?_, h6, ?_⟩
  · rw [h2]; rfl
  · intro fs inv hi acc cur
    rw [(h5 fs).1] at hi
    exact C34_inventory _ fs inv hi acc cur
  · intro inv hi acc cur
    rw [(h5 []).1] at hi
    rw [subtotal_inventory _ _ _ hi, h7, rolledUp, ← totalUnits_posted]
    congr 1
    unfold selection
    rw [List.filter_eq_self]
    intro x _
    simp [Selected]

/-- **C108**, something is wrong: loading ends with the error that booking has failed, all reports are empty, and the user reads that
booking has failed. -/
theorem C108_refused (hL : L.Lawful) (H : Convert.Hashes) (h : FairHashes H) (F : Front E L)
    (ho : IsMapOrder F.ordm) (hs : IsOrder F.ord) (hf : ∀ k m, (F.orders k m).Perm m) (src : E.Sources) (s : Lima.Success)
    (hd : ∀ d ∈ s.directives, SourceOk d.item) (hp : s.plugins = [])
    (ha : audit L (readOptions H s).bookingMethod (readOptions H s).tolerance (readLedger H s) ≠ some ([], [])) :
    ∃ m, loadBeanfile F (.ready src (.ok (Convert.parsed H s))) = .ok m ∧ m.error = some (.booking (some [])) ∧
      (∀ fs, m.inventory fs = some [] ∧ m.balances fs = some [] ∧ m.incomeStatement fs = some [] ∧ m.journal fs = some []) ∧
      ∃ t, (t = [] ∨ t = str% "nil") ∧ (printErrors F m.pod m.error).2 = ([str% "Booking failed\n", t], true) := by
  obtain ⟨h1, -, h3, -⟩ := C61_wellformed H h s hd
  have hr : NoRawPlugins F (Convert.parsed H s) := by
    intro q hq
    simp [Convert.parsed, hp] at hq
  have key : ∃ m, loadBeanfile F (.ready src (.ok (Convert.parsed H s))) = .ok m ∧ m.error = some (.booking (some [])) ∧
      ∃ t, (t = [] ∨ t = str% "nil") ∧ (printErrors F m.pod m.error).2 = ([str% "Booking failed\n", t], true) := by
    cases hb : book L (F.orders 4) (Server.bookOptions (Convert.parsed H s).options) (Convert.parsed H s).directives with
    | success out w => exact absurd ((C82_returned L hL (F.orders 4) (hf 4) (readOptions H s) (readLedger H s) _ _).1 hb).1 ha
    | failure es => exact C41_silent F ho hs src h3 (fun d hd => (h1 d hd).2) hr hb
    | panic => exact silent_panic F ho hs src h3 (fun d hd => (h1 d hd).2) hr hb
  obtain ⟨m, h4, h5, h6⟩ := key
  exact ⟨m, h4, h5, fun fs => C70_failed F h4 h5 fs, h6⟩

/-- **C108**: a beanfile without plugins is loaded without an error exactly if nothing is wrong with what the parser has read. -/
theorem C108_iff (hL : L.Lawful) (hL' : DatesExist L) (H : Convert.Hashes) (h : FairHashes H) (F : Front E L)
    (hinj : Function.Injective F.hash) (ho : IsMapOrder F.ordm) (hs : IsOrder F.ord) (hf : ∀ k m, (F.orders k m).Perm m) (hE : SpanStore E)
    (order : AMap Str Nat → AMap Str Nat) (hreg : F.registry = fun ds o => some (registryOf order ds o)) (src : E.Sources) (s : Lima.Success)
    (hd : ∀ d ∈ s.directives, SourceOk d.item) (hp : s.plugins = []) :
    (∃ m, loadBeanfile F (.ready src (.ok (Convert.parsed H s))) = .ok m ∧ m.error = none) ↔
      audit L (readOptions H s).bookingMethod (readOptions H s).tolerance (readLedger H s) = some ([], []) := by
  constructor
  · rintro ⟨m, h1, h2⟩
    by_contra ha
    obtain ⟨m', h1', h2', -⟩ := C108_refused hL H h F ho hs hf src s hd hp ha
    cases h1.symm.trans h1'
    simp [h2] at h2'
  · intro ha
    obtain ⟨m, -, -, h1, h2, -⟩ := C108_loaded hL hL' H h F hinj ho hs hf hE order hreg src s hd hp ha
    exact ⟨m, h1, h2⟩

/-- **C108**, with plugins for raw directives: if loading ends without an error, nothing is wrong with what the plugins have made of the
beanfile, and the inventory is that of the reference semantics for it. -/
theorem C108_plugins (hL : L.Lawful) (hL' : DatesExist L) (F : Front E L)
    (hinj : Function.Injective F.hash) (ho : IsMapOrder F.ordm) (hs : IsOrder F.ord) (hf : ∀ k m, (F.orders k m).Perm m) (hE : SpanStore E)
    (src : E.Sources) {p : Parsed} (hp : OptionsOk p.options) (hd : ∀ d ∈ p.directives, DatesOk d)
    (hon : OptionsNamed p.options) (hoo : (p.options.others.map Prod.fst).Nodup) (order : AMap Str Nat → AMap Str Nat)
    (hreg : F.registry = fun ds o => some (registryOf order ds o))
    {m : LoadedBeans E} (h : loadBeanfile F (.ready src (.ok p)) = .ok m) (he : m.error = none) (hb : bookedPlugins F p m.options = []) :
    ∃ src' xs ds,
      PluginsGive E F.texts src' none (rawPlugins F p m.options) (p.directives.map fun d => ofDirective F.ord (withoutLostMeta d)) xs ∧
      ToBook F.ordm (rawPlugins F p m.options) p xs ds ∧
      audit L (Server.bookOptions p.options).bookingMethod (Server.bookOptions p.options).tolerance ds = some ([], []) ∧
      ∀ fs inv, m.inventory fs = some inv → ∀ acc cur,
        totalUnits Position.units ((inv.get acc).getD []) (fun x => x.cur = cur) =
          totalUnits (fun x => x.posting.units)
            (selection (returned L (Server.bookOptions p.options).bookingMethod (Server.bookOptions p.options).tolerance ds) fs)
            (fun x => x.posting.acc = acc ∧ x.posting.cur = cur) := by
  obtain ⟨src', k, xs, ds, out, w, h1, h2, h3, -, h4⟩ := C70_reports F hinj ho hs hE hL' src hp hd hon hoo order hreg h he hb
  obtain ⟨ha, rfl, -⟩ := (C82_returned L hL (F.orders k) (hf k) _ ds _ _).1 h3
  refine ⟨src', xs, ds, h1, h2, ha, fun fs inv hi acc cur => ?_⟩
  rw [(h4 fs).1] at hi
  exact C34_inventory _ fs inv hi acc cur

namespace Ex

/-- The parsed ledger of C61 without its first directive, which opens the account. -/
def readUnopened : Lima.Success := { read with directives := [shopping false] }

end Ex

/-- Non-vacuity of `C108_loaded`, `C108_iff` and `C108_plugins`: nothing is wrong with the parsed ledger of C61; two directives and two
postings are returned. -/
example : Toy.lib.Lawful ∧ DatesExist Toy.lib ∧ FairHashes Ex.hashes ∧ Function.Injective Ex.reportingFront.hash ∧
    IsMapOrder Ex.reportingFront.ordm ∧ IsOrder Ex.reportingFront.ord ∧ (∀ k m, (Ex.reportingFront.orders k m).Perm m) ∧ SpanStore Toy.ext ∧
    (Ex.reportingFront.registry = fun ds o => some (registryOf id ds o)) ∧
    (∀ d ∈ Ex.read.directives, SourceOk d.item) ∧ Ex.read.plugins = [] ∧
    audit Toy.lib (readOptions Ex.hashes Ex.read).bookingMethod (readOptions Ex.hashes Ex.read).tolerance (readLedger Ex.hashes Ex.read) =
      some ([], []) ∧
    ((allPosted (returned Toy.lib (readOptions Ex.hashes Ex.read).bookingMethod (readOptions Ex.hashes Ex.read).tolerance
      (readLedger Ex.hashes Ex.read))).map fun x => x.posting.units) = [⟨5, 0⟩, ⟨-5, 0⟩] :=
  ⟨Toy.lib_lawful, Toy.lib_dates, Ex.hashes_fair, fun _ _ h => h, fun l => .refl l, fun l => .refl l, fun _ m => .refl m, Toy.spanStore, rfl,
    Ex.read_ok, rfl, by decide +kernel, by decide +kernel⟩

/-- Non-vacuity of `C108_refused`: without the first directive the account is not open. -/
example : (∀ d ∈ Ex.readUnopened.directives, SourceOk d.item) ∧ Ex.readUnopened.plugins = [] ∧
    audit Toy.lib (readOptions Ex.hashes Ex.readUnopened).bookingMethod (readOptions Ex.hashes Ex.readUnopened).tolerance
      (readLedger Ex.hashes Ex.readUnopened) = some ([{ directive := 0, posting := some 0, fault := .notOpen }], []) := by
  refine ⟨fun d hd => Ex.read_ok d ?_, rfl, by decide +kernel⟩
  simp only [Ex.readUnopened, List.mem_singleton] at hd
  simp [Ex.read, hd]

end Limabean
