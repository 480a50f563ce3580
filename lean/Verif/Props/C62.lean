/-
C62: warnings do not stop loading, and reach the user.

The first part holds (`C62_partial`). The second is false: no load keeps or prints a warning (`C62_never`), though booking has warnings to
give (`C62_false`).
-/
import Verif.Props.C50
import Verif.Props.C59
import Verif.Props.C60
import Verif.Props.C61

namespace Limabean

open Clj Spec

variable {E : Ext} {L : BookLib}

namespace Clj

/-- An answer without warnings. -/
def NoWarnings (x : Data) : Prop := (x.get (str% "warnings")).elems = []

theorem all_keys {f : Str → Json → Option Data} {l : List (Str × Json)} {m : List (Str × Data)}
    (h : Json.all (fun p => (f p.1 p.2).map (p.1, ·)) l = some m) : m.map Prod.fst = l.map Prod.fst := by
  induction l generalizing m with
  | nil => cases h; rfl
  | cons p l ih =>
    simp only [Json.all] at h
    cases h1 : f p.1 p.2 with
    | none => simp [h1] at h
    | some x =>
      cases h2 : Json.all (fun p => (f p.1 p.2).map (p.1, ·)) l with
      | none => simp [h1, h2] at h
      | some m' =>
        simp only [h1, h2, Option.map_some] at h
        cases h
        simp [ih h2]

/-- Data without that entry. -/
theorem get_absent {ord : List Data → List Data} {key : Option Str} {l : List (Str × Json)} {x : Data} (hn : (l.map Prod.fst).Nodup)
    (h : decode ord key (.obj l) = some x) {k : Str} (hk : k ∉ l.map Prod.fst) : x.get k = .nil := by
  rw [decode_obj ord key hn, Option.map_eq_some_iff] at h
  obtain ⟨m, h, rfl⟩ := h
  have := all_keys (f := field ord) h
  rw [← this] at hk
  simp only [Data.get]
  rw [show AMap.get m k = none from ?_]
  · rfl
  · revert hk
    clear h this
    induction m with
    | nil => intro _; rfl
    | cons p m ih =>
      intro hk
      simp only [List.map_cons, List.mem_cons, not_or] at hk
      rw [AMap.get, if_neg (fun e => hk.1 e.symm)]
      exact ih hk.2

/-- Directives and booked directives come without warnings. -/
theorem payload_quiet {ord : List Data → List Data} {id : Option Id} {p : Payload}
    (hp : (∃ l, p = .directives l) ∨ (∃ l, p = .booked l) ∨ ∃ c m d, p = .error c m d) {a : Answer}
    (h : answerOf ord (some (Wire.encResponse E { id := id, payload := p })) = some a) : NoWarnings a.ok := by
  rcases hp with ⟨l, rfl⟩ | ⟨l, rfl⟩ | ⟨c, m, d, rfl⟩
  · cases hd : decode ord (some (str% "result"))
      (.obj [(str% "directives", .arr (l.map Wire.encDirective)), (str% "warnings", .null)]) with
    | none =>
      rw [answer_result_none (p := .directives l) rfl hd] at h
      cases h
    | some x =>
      rw [answer_result (p := .directives l) rfl hd, if_pos (decode_obj_truthy hd)] at h
      cases h
      rw [decode_obj _ _ (by simp)] at hd
      simp only [Json.all, field_plain (k := str% "directives") (by decide), field_plain (k := str% "warnings") (by decide), decode_null] at hd
      cases hx : decode ord (some (str% "directives")) (.arr (l.map Wire.encDirective)) with
      | none => simp [hx] at hd
      | some y =>
        simp [hx] at hd
        subst hd
        rfl
  · cases hd : decode ord (some (str% "result")) (.obj [(str% "directives", .arr (l.map Wire.encBookedDirective))]) with
    | none =>
      rw [answer_result_none (p := .booked l) rfl hd] at h
      cases h
    | some x =>
      rw [answer_result (p := .booked l) rfl hd, if_pos (decode_obj_truthy hd)] at h
      cases h
      simp [NoWarnings, get_absent (by simp) hd (k := str% "warnings") (by simp), Data.elems]
  · simp only [answerOf, Option.map_eq_some_iff] at h
    obtain ⟨x, h, rfl⟩ := h
    have : x.get (str% "result") = .nil := get_absent (by simp [Wire.encPayload]) h (by simp [Wire.encPayload])
    simp only [this]
    rfl

theorem decMethod_isBook {ordm : List (Str × Json) → List (Str × Json)} {p : Data} {id : Nat} {x : Method}
    (h : Wire.decMethod (requestEntries ordm (str% "book") p id) = some x) : ∃ ds, x = .book ds := by
  simp only [Wire.decMethod, Json.req, method_field, Json.toStr] at h
  simp at h
  obtain ⟨ds, -, h⟩ := h
  exact ⟨ds, h.symm⟩

/-- What the server answers when it is asked for directives or to book. -/
theorem healthy_quiet {order : AMap Str (Account L) → AMap Str (Account L)} {id : Option Id} {src src' : E.Sources}
    {parsed : Except (List ParserError) Parsed} {x : Method} (hx : x = .directives ∨ ∃ ds, x = .book ds) {r : Response}
    (h : Server.healthy E L order id src parsed x = some (src', r)) :
    (∃ l, r.payload = .directives l) ∨ (∃ l, r.payload = .booked l) ∨ ∃ c m d, r.payload = .error c m d := by
  rcases hx with rfl | ⟨ds, rfl⟩
  · cases parsed with
    | error es => cases h; exact .inr (.inr ⟨_, _, _, rfl⟩)
    | ok p => cases h; exact .inl ⟨_, rfl⟩
  · simp only [Server.healthy, Option.map_eq_some_iff] at h
    obtain ⟨r', h, he⟩ := h
    cases he
    cases parsed with
    | error es => cases h; exact .inr (.inr ⟨_, _, _, rfl⟩)
    | ok p =>
      simp only [Server.bookRequest] at h
      split at h
      · cases h
      · cases h; exact .inr (.inl ⟨_, rfl⟩)
      · split at h
        · rw [Option.map_eq_some_iff] at h
          obtain ⟨l, -, rfl⟩ := h
          exact .inr (.inr ⟨_, _, _, rfl⟩)
        · cases h; exact .inr (.inr ⟨_, _, _, rfl⟩)

theorem invoke_quiet (F : Front E L) (ho : IsMapOrder F.ordm) {parsed : Except (List ParserError) Parsed} {n : Nat} {pod : Pod E}
    (h : PodOk parsed n pod) (hn : n < 2147483647) {m : Str} {p : Data}
    (hm : ∀ id x, Wire.decMethod (requestEntries F.ordm m p id) = some x → x = .directives ∨ ∃ ds, x = .book ds) {a : Answer}
    (ha : (pod.invoke F m p).2 = some a) : NoWarnings a.ok := by
  obtain ⟨id, s, k, w⟩ := pod
  obtain ⟨h1, h2, h3⟩ := h
  simp only at h1 h2 h3
  subst h2
  rcases h3 with rfl | ⟨src, rfl⟩
  · rw [invoke_dead F rfl rfl] at ha
    cases ha
    rfl
  · by_cases hp : 127 ≤ levels p
    · rw [invoke_bad F ho (by omega) (.inr hp)] at ha
      dsimp only at ha
      rw [answer_other] at ha
      cases ha
      rfl
    rw [Nat.not_le] at hp
    cases hx : Wire.decMethod (requestEntries F.ordm m p (id + 1)) with
    | none =>
      rw [invoke_bad F ho (by omega) (.inl hx)] at ha
      dsimp only at ha
      rw [answer_other] at ha
      cases ha
      rfl
    | some x =>
      cases hh : Server.healthy E L (F.orders k) (some (.int ((id + 1 : Nat) : Int))) src parsed x with
      | none =>
        rw [invoke_dies F ho (by omega) hx hh hp] at ha
        cases ha
        rfl
      | some y =>
        obtain ⟨src', r⟩ := y
        rw [invoke_ready F ho (by omega) hx hh hp] at ha
        exact payload_quiet (healthy_quiet (hm _ _ hx) hh) ha

theorem mapError_quiet {a : Answer} (h : NoWarnings a.ok) : NoWarnings (mapError a).ok := by
  unfold mapError
  split
  · split
    · rfl
    · split <;> rfl
  · exact h

theorem directives_quiet (F : Front E L) (ho : IsMapOrder F.ordm) {parsed : Except (List ParserError) Parsed} {n : Nat} {pod pod' : Pod E}
    (h : PodOk parsed n pod) (hn : n < 2147483647) {r : Mapped} (hr : pod.directives F = (pod', some r)) : NoWarnings r.ok := by
  simp only [Pod.directives, Prod.mk.injEq, Option.map_eq_some_iff] at hr
  obtain ⟨-, a, ha, rfl⟩ := hr
  refine mapError_quiet (invoke_quiet F ho h hn ?_ ha)
  intro id x hx
  rw [decMethod_plain (x := .directives) (by simp)] at hx
  cases hx
  exact .inl rfl

theorem book_quiet (F : Front E L) (ho : IsMapOrder F.ordm) {parsed : Except (List ParserError) Parsed} {n : Nat} {pod pod' : Pod E}
    (h : PodOk parsed n pod) (hn : n < 2147483647) {ds : Option (List Data)} {r : Mapped} (hr : pod.book F ds = (pod', some r)) :
    NoWarnings r.ok := by
  simp only [Pod.book, Prod.mk.injEq, Option.map_eq_some_iff] at hr
  obtain ⟨-, a, ha, rfl⟩ := hr
  exact mapError_quiet (invoke_quiet F ho h hn (fun id x hx => .inr (decMethod_isBook hx)) ha)

/-- No warnings so far. -/
structure Quiet (parsed : Except (List ParserError) Parsed) (n : Nat) (m : LoadedBeans E) : Prop where
  pod : PodOk parsed n m.pod
  raw : m.rawWarnings = .nil
  booked : m.bookedWarnings = .nil

theorem first_quiet (F : Front E L) {parsed : Except (List ParserError) Parsed} {n : Nat} {m m' : LoadedBeans E}
    (h : Quiet parsed n m) (hm : getPluginsAndOptions F m = .ok m') : Quiet parsed (n + 2) m' := by
  have h1 : PodOk parsed (n + 1) (m.pod.plugins F).1 := invoke_podOk F h.pod _ _
  unfold getPluginsAndOptions at hm
  split at hm
  · cases hm
  · rename_i pod r hp
    rw [hp] at h1
    have h2 : PodOk parsed (n + 2) (pod.options F).1 := invoke_podOk F h1 _ _
    split at hm
    · split at hm
      · cases hm
      · rename_i pod' o hq
        rw [hq] at h2
        cases hm
        exact ⟨h2, h.raw, h.booked⟩
    · cases hm
      exact ⟨h1.mono (by omega), h.raw, h.booked⟩

theorem raw_quiet (F : Front E L) (ho : IsMapOrder F.ordm) {parsed : Except (List ParserError) Parsed} {n : Nat} {m m' : LoadedBeans E}
    (h : Quiet parsed n m) (hn : n < 2147483647) (hm : getRawDirectives F m = .ok m') : Quiet parsed (n + 2) m' := by
  have h1 : PodOk parsed (n + 1) (m.pod.directives F).1 := invoke_podOk F h.pod _ _
  unfold getRawDirectives at hm
  split at hm
  · cases hm
  · rename_i pod r hp
    have hq : NoWarnings r.ok := directives_quiet F ho h.pod hn hp
    rw [hp] at h1
    split at hm
    · cases hm
      refine ⟨h1.mono (by omega), ?_, h.booked⟩
      dsimp only
      rw [if_pos (by rw [hq]; rfl)]
      exact h.raw
    · cases hm

theorem plugins_quiet (F : Front E L) (raw : Bool) {parsed : Except (List ParserError) Parsed} {n : Nat} {m m' : LoadedBeans E}
    (h : Quiet parsed n m) (hm : runPluginsStage F raw m = .ok m') : Quiet parsed (n + 2) m' := by
  have this : ∀ ps ds, PodOk parsed (n + 1) (transformed F raw ps m.pod ds).1 := by
    intro ps ds
    unfold transformed
    split
    · exact h.pod.mono (by omega)
    · exact mergeWithPod_podOk F h.pod _
  unfold runPluginsStage at hm
  dsimp only at hm
  split at hm
  · cases hm
    exact ⟨h.pod.mono (by omega), h.raw, h.booked⟩
  · split at hm
    all_goals
      rename_i hp
      have h1 := this (pluginsOfKind raw (m.plugins.getD [])) ((if raw then m.rawDirectives else m.bookedDirectives).getD [])
      rw [hp] at h1
      cases hm
      exact ⟨h1.mono (by omega), h.raw, h.booked⟩

theorem booking_quiet (F : Front E L) (ho : IsMapOrder F.ordm) {parsed : Except (List ParserError) Parsed} {n : Nat} {m m' : LoadedBeans E}
    (h : Quiet parsed n m) (hn : n < 2147483647) (hm : bookRawDirectives F m = .ok m') : Quiet parsed (n + 2) m' := by
  have h1 : PodOk parsed (n + 1) (m.pod.book F m.rawXfDirectives).1 := invoke_podOk F h.pod _ _
  unfold bookRawDirectives at hm
  dsimp only at hm
  split at hm
  · rename_i pod hp
    rw [hp] at h1
    cases hm
    exact ⟨h1.mono (by omega), h.raw, h.booked⟩
  · rename_i pod r hp
    have hq : NoWarnings r.ok := book_quiet F ho h.pod hn hp
    rw [hp] at h1
    split at hm
    · cases hm
      refine ⟨h1.mono (by omega), h.raw, ?_⟩
      dsimp only
      rw [if_pos (by rw [hq]; rfl)]
      exact h.booked
    · cases hm
      exact ⟨h1.mono (by omega), h.raw, h.booked⟩

theorem stages_quiet (F : Front E L) (ho : IsMapOrder F.ordm) {parsed : Except (List ParserError) Parsed} {n : Nat} {m m' : LoadedBeans E}
    (h : Quiet parsed n m) (hn : n < 2147483647) {f : Stage E} (hf : f ∈ stages F) (hm : f m = .ok m') : Quiet parsed (n + 2) m' := by
  simp only [stages, List.mem_cons, List.not_mem_nil, or_false] at hf
  rcases hf with rfl | rfl | rfl | rfl | rfl | rfl | rfl
  · exact first_quiet F h hm
  · exact raw_quiet F ho h hn hm
  · exact plugins_quiet F true h hm
  · exact booking_quiet F ho h hn hm
  · exact plugins_quiet F false h hm
  · cases hm
    exact ⟨h.pod.mono (by omega), h.raw, h.booked⟩
  · unfold setRegistry at hm
    split at hm
    · cases hm
    · cases hm
      exact ⟨h.pod.mono (by omega), h.raw, h.booked⟩

theorem bindAll_quiet (F : Front E L) (ho : IsMapOrder F.ordm) {parsed : Except (List ParserError) Parsed} {fs : List (Stage E)}
    (hfs : ∀ f ∈ fs, f ∈ stages F) {n : Nat} {m m' : LoadedBeans E}
    (h : Quiet parsed n m) (hn : n + 2 * fs.length < 2147483647) (hm : bindAll m fs = .ok m') : ∃ k, Quiet parsed k m' := by
  induction fs generalizing n m with
  | nil => cases hm; exact ⟨n, h⟩
  | cons f fs ih =>
    simp only [List.length_cons] at hn
    rw [bindAll] at hm
    split at hm
    · exact ih (fun g hg => hfs g (.tail _ hg)) h (by omega) hm
    · split at hm
      · cases hm
      · rename_i m1 h1
        exact ih (fun g hg => hfs g (.tail _ hg)) (stages_quiet F ho h (by omega) (hfs f (.head _)) h1) (by omega) hm

end Clj

/-- No load keeps a warning, neither of the parser nor of booking, whatever the beanfile and the plugins. -/
theorem C62_never (F : Front E L) (ho : IsMapOrder F.ordm) (s : Server E) {m : LoadedBeans E} (h : loadBeanfile F s = .ok m) :
    m.rawWarnings = .nil ∧ m.bookedWarnings = .nil := by
  cases s with
  | unreadable msg =>
    simp only [loadBeanfile, start_unreadable F ho] at h
    cases h
  | ready src parsed =>
    simp only [loadBeanfile, start_ready F ho] at h
    split at h
    · cases h
    · rename_i m' hm
      cases h
      obtain ⟨k, hq⟩ := bindAll_quiet F ho (fs := stages F) (fun _ h => h) (n := 1) (m := { pod := ready 1 src parsed })
        ⟨⟨Nat.le_refl _, rfl, .inr ⟨src, rfl⟩⟩, rfl, rfl⟩ (by simp [stages]) hm
      exact ⟨hq.raw, hq.booked⟩

/-- The first part of C62: a beanfile without plugins which the parser accepts and which books is loaded without an error and nothing is
printed, whatever the parser and booking warn of. Missing: that the user gets to see the warnings, which is false (`C62_false`). -/
theorem C62_partial (H : Convert.Hashes) (h : FairHashes H) (F : Front E L) (ho : IsMapOrder F.ordm) (hs : IsOrder F.ord)
    (hreg : ∀ l o, F.registry l o ≠ none) (hL : DatesExist L) (src : E.Sources) (s : Lima.Success)
    (hd : ∀ d ∈ s.directives, SourceOk d.item) (hp : s.plugins = []) {out : List Booked.Directive} {w : List IndexedReport}
    (hb : book L (F.orders 4) (Server.bookOptions (Convert.parsed H s).options) (s.directives.map (Convert.directive H)) = .success out w) :
    ∃ m l, loadBeanfile F (.ready src (.ok (Convert.parsed H s))) = .ok m ∧ (printErrors F m.pod m.error).2 = ([], true) ∧
      m.directives = some l ∧ l.length = out.length := by
  obtain ⟨m, l, h1, h2, h3, h4⟩ := C61_loaded H h F ho hs hreg hL src s hd hp hb
  refine ⟨m, l, h1, by rw [h2]; rfl, h3, ?_⟩
  rw [← h4.length_eq, List.length_map]

/-- Non-vacuity: a parsed ledger with a warning which meets the hypotheses and is loaded. -/
example : (∀ d ∈ Ex.read.directives, SourceOk d.item) ∧
    (Ex.loadedDates Ex.strictFront (.ready [] (.ok (Convert.parsed Ex.hashes
      { Ex.read with warnings := [⟨str% "unused", str% "option", { source := 0, start := 0, stop := 1 }, [], []⟩] })))).map List.length = some 2 :=
  ⟨Ex.read_ok, by decide +kernel⟩

/-- C62 is false: this ledger books with a warning, and the user gets to see nothing of it: loading it keeps no warnings and prints
nothing. -/
theorem C62_false : (∃ out w, book Toy.lib id {} Ex.averaged = .success out w ∧ w ≠ []) ∧
    ∃ m, loadBeanfile Ex.front (Toy.server Ex.averaged) = .ok m ∧ m.rawWarnings = .nil ∧ m.bookedWarnings = .nil ∧
      (m.directives.map List.length) = some 3 ∧ (printErrors Ex.front m.pod m.error).2 = ([], true) := by
  constructor
  · have : (match book Toy.lib id {} Ex.averaged with | .success _ w => !w.isEmpty | _ => false) = true := by decide +kernel
    revert this
    cases book Toy.lib id {} Ex.averaged with
    | success out w =>
      intro h
      exact ⟨out, w, rfl, by rintro rfl; cases h⟩
    | _ => simp
  · have : (match loadBeanfile Ex.front (Toy.server Ex.averaged) with
        | .ok m => decide (m.directives.map List.length = some 3) && decide ((printErrors Ex.front m.pod m.error).2 = ([], true))
        | .error _ => false) = true := by decide +kernel
    cases hm : loadBeanfile Ex.front (Toy.server Ex.averaged) with
    | error p => simp [hm] at this
    | ok m =>
      rw [hm] at this
      simp only [Bool.and_eq_true, decide_eq_true_eq] at this
      obtain ⟨h1, h2⟩ := C62_never Ex.front (fun l => .refl l) (Toy.server Ex.averaged) hm
      exact ⟨m, rfl, h1, h2, this.1, this.2⟩

/-- The parser's warnings make no difference to what the server holds. -/
theorem C62_parser (H : Convert.Hashes) (s : Lima.Success) (ws : List ParserError) :
    Convert.parsed H { s with warnings := ws } = Convert.parsed H s := rfl

end Limabean
