/-
Loading from a server which has parsed the beanfile, call by call.
-/
import Verif.Spec.Session
import Verif.Proofs.PodLemmas

namespace Limabean
namespace Clj

open Spec Json

variable {E : Ext} {L : BookLib} {ord : List Data → List Data}

theorem noDates_all {l : List Json} (h : NoDatesAll l) : ∀ j ∈ l, NoDates j := by
  induction l with
  | nil => simp
  | cons j l ih =>
    rw [NoDatesAll] at h
    intro x hx
    rcases List.mem_cons.1 hx with rfl | hx
    · exact h.1
    · exact ih h.2 x hx

theorem noDates_entries {l : List (Str × Json)} : NoDatesEntries l ↔
    ∀ p ∈ l, (p.1 = str% "date" → ∀ s, p.2 ≠ .str s) ∧ NoDates p.2 := by
  induction l with
  | nil => simp [NoDatesEntries]
  | cons p l ih =>
    obtain ⟨k, j⟩ := p
    rw [NoDatesEntries, ih]
    simp only [List.mem_cons, forall_eq_or_imp, and_assoc]

theorem mem_collect {l : List (Str × Data)} {p : Str × Data} (h : p ∈ collect l) : p ∈ l := by
  have key : ∀ (a l : List (Str × Data)), p ∈ l.foldl (fun m p => AMap.set m p.1 p.2) a → p ∈ a ∨ p ∈ l := by
    intro a l
    induction l generalizing a with
    | nil => simp
    | cons q l ih =>
      intro h
      rcases ih _ h with h | h
      · rcases AMap.mem_set h with h | h
        · exact .inr (by simp [h])
        · exact .inl h
      · exact .inr (by simp [h])
  simpa using key [] l h

theorem all_total {α β : Type} {f : α → Option β} {l : List α} (h : ∀ a ∈ l, ∃ b, f a = some b) : ∃ bs, Json.all f l = some bs := by
  induction l with
  | nil => exact ⟨[], rfl⟩
  | cons a l ih =>
    obtain ⟨b, hb⟩ := h a (by simp)
    obtain ⟨bs, hbs⟩ := ih fun a ha => h a (by simp [ha])
    exact ⟨b :: bs, by simp [Json.all, hb, hbs]⟩

theorem all_mem {α β : Type} {f : α → Option β} {l : List α} {bs : List β} (h : Json.all f l = some bs) {b : β} (hb : b ∈ bs) :
    ∃ a ∈ l, f a = some b := by
  induction l generalizing bs with
  | nil => cases h; cases hb
  | cons a l ih =>
    simp only [Json.all] at h
    split at h
    · rename_i c cs h1 h2
      cases h
      rcases List.mem_cons.1 hb with rfl | hb
      · exact ⟨a, by simp, h1⟩
      · obtain ⟨x, hx, h3⟩ := ih h2 hb
        exact ⟨x, by simp [hx], h3⟩
    · cases h

theorem entries_size {l : List (Str × Json)} {p : Str × Json} (h : p ∈ l) : sizeOf p.2 < sizeOf l := by
  have := List.sizeOf_lt_of_mem h
  obtain ⟨k, j⟩ := p
  simp at this ⊢
  omega

/-- JSON without dates can be read. -/
theorem decode_total (ho : IsOrder ord) (key : Option Str) (j : Json) (h : NoDates j) :
    ∃ x, decode ord key j = some x ∧ ∀ s, x = .str s → j = .str s := by
  match j, h with
  | .null, _ => exact ⟨.nil, rfl, by simp⟩
  | .bool b, _ => exact ⟨.bool b, rfl, by simp⟩
  | .num d, _ => exact ⟨.num d, rfl, by simp⟩
  | .str s, _ => exact ⟨.str s, rfl, by simp⟩
  | .arr l, h =>
    have hl := noDates_all (by rwa [NoDates] at h)
    have h1 : ∀ x ∈ ofJsons ord l, ∃ y, convertValues x = some y := by
      intro x hx
      rw [ofJsons_eq] at hx
      obtain ⟨j, hj, rfl⟩ := List.mem_map.1 hx
      have : sizeOf j < sizeOf l := List.sizeOf_lt_of_mem hj
      obtain ⟨y, hy, -⟩ := decode_total ho none j (hl j hj)
      exact ⟨y, hy⟩
    simp only [decode, ofJson]
    split
    · obtain ⟨ys, hys⟩ := all_total (f := convertValues) (l := ord (ofJsons ord l)) fun x hx => h1 x ((ho _).mem_iff.1 hx)
      exact ⟨.set ys, by rw [convertValues, convertAll_eq, hys]; rfl, by simp⟩
    · obtain ⟨ys, hys⟩ := all_total h1
      exact ⟨.vec ys, by rw [convertValues, convertAll_eq, hys]; rfl, by simp⟩
  | .obj l, h =>
    rw [NoDates, noDates_entries] at h
    have h1 : ∀ p ∈ collect (ofEntries ord l), ∃ j, (p.1, j) ∈ l ∧ ∃ x, convertValues p.2 = some x ∧ ∀ s, x = .str s → j = .str s := by
      intro p hp
      have := mem_collect hp
      rw [ofEntries_eq] at this
      obtain ⟨q, hq, rfl⟩ := List.mem_map.1 this
      have : sizeOf q.2 < sizeOf l := entries_size hq
      exact ⟨q.2, hq, decode_total ho _ q.2 (h q hq).2⟩
    obtain ⟨m, hm⟩ := all_total (f := fun p : Str × Data => (convertValues p.2).map (p.1, ·)) (l := collect (ofEntries ord l)) (by
      intro p hp
      obtain ⟨j, -, x, hx, -⟩ := h1 p hp
      exact ⟨(p.1, x), by rw [hx]; rfl⟩)
    have hd : convertDate m = some m := by
      unfold convertDate
      split
      · rename_i s hs
        exfalso
        obtain ⟨p, hp, hx⟩ := all_mem hm (AMap.mem_of_get hs)
        obtain ⟨j, hj, x, hx', h2⟩ := h1 p hp
        rw [hx'] at hx
        simp only [Option.map_some, Option.some.injEq, Prod.mk.injEq] at hx
        exact (h _ hj).1 hx.1 s (h2 s hx.2)
      · rfl
    refine ⟨.map (convertKeyword (str% "booking") (convertKeyword (str% "dct") m)), ?_, by simp⟩
    rw [decode, ofJson, convertValues, convertEntries_eq, hm]
    simp only [Option.bind_some, convertMap, hd, Option.map_some]
termination_by sizeOf j
decreasing_by all_goals simp_wf; omega

theorem noDates_append {a b : List (Str × Json)} (h : NoDatesEntries a) (h' : NoDatesEntries b) : NoDatesEntries (a ++ b) := by
  rw [noDates_entries] at *
  intro p hp
  rcases List.mem_append.1 hp with hp | hp
  · exact h p hp
  · exact h' p hp

theorem noDates_entry {α : Type} {k : Str} {x : Option α} {f : α → Json} (hk : k ≠ str% "date") (h : ∀ a, NoDates (f a)) :
    NoDatesEntries (entry k x f) := by
  cases x with
  | none => simp [entry, NoDatesEntries]
  | some a => simp [entry, NoDatesEntries, hk, h a]

/-- The client can read the options. -/
theorem decode_options (ho : IsOrder ord) (key : Option Str) {o : LedgerOptions} (h : OptionsOk o) :
    ∃ x, decode ord key (Wire.encOptions o) = some x := by
  obtain ⟨x, hx, -⟩ := decode_total ho key (Wire.encOptions o) (by
    rw [Wire.encOptions, Wire.optionEntries, NoDates]
    refine noDates_append (noDates_append (noDates_append (noDates_append (noDates_append (noDates_append (noDates_append ?_
      (noDates_entry (by decide) fun l => ?_)) (noDates_entry (by decide) fun _ => ?_)) (noDates_entry (by decide) fun _ => ?_))
      (noDates_entry (by decide) fun _ => ?_)) (noDates_entry (by decide) fun _ => ?_)) (noDates_entry (by decide) fun _ => ?_)) h
    · simp [NoDatesEntries, NoDates]
    · rw [NoDates, noDates_entries]
      intro p hp
      obtain ⟨q, -, rfl⟩ := List.mem_map.1 hp
      simp [NoDates]
    all_goals first | simp [NoDates] | (rename_i b; cases b <;> simp [NoDates, Wire.encBooking]))
  exact ⟨x, hx⟩

theorem decode_plugin (key : Option Str) (p : Str × Option Str) : decode ord key (Wire.encPlugin p) = some (ofPlugin p) := by
  obtain ⟨n, c⟩ := p
  cases c <;> rfl

/-- The process after `n` calls. -/
def ready (n : Nat) (src : E.Sources) (parsed : Except (List ParserError) Parsed) : Pod E :=
  { nextId := n, server := some (.ready src parsed), served := n }

theorem start_ready (F : Front E L) (ho : IsMapOrder F.ordm) (src : E.Sources) (parsed : Except (List ParserError) Parsed) :
    Pod.start F (.ready src parsed) = .ok (ready 1 src parsed) := by
  unfold Pod.start
  rw [invoke_ready F ho (by omega) (decMethod_plain (x := .status) (by simp)) rfl, answer_result (p := .ok) rfl (decode_null _)]
  rfl

theorem plugins_ok (F : Front E L) (ho : IsMapOrder F.ordm) {n : Nat} (hn : n < 2147483647) (src : E.Sources) (p : Parsed) :
    (ready n src (.ok p)).plugins F = (ready (n + 1) src (.ok p), some { ok := .vec (p.plugins.map ofPlugin) }) := by
  unfold Pod.plugins ready
  rw [invoke_ready F ho hn (decMethod_plain (x := .plugins) (by simp)) rfl]
  dsimp only
  rw [Server.plugins, answer_result (p := .plugins p.plugins) rfl (decode_list rfl fun x _ => decode_plugin none x)]
  rfl

theorem plugins_error (F : Front E L) (ho : IsMapOrder F.ordm) {n : Nat} (hn : n < 2147483647) (src : E.Sources) (es : List ParserError) :
    (ready n src (.error es)).plugins F =
      (ready (n + 1) src (.error es), some { spanned := .vec ((Server.parserReports es).map ofReport) }) := by
  unfold Pod.plugins ready
  rw [invoke_ready F ho hn (decMethod_plain (x := .plugins) (by simp)) rfl]
  dsimp only
  rw [Server.plugins, answer_reports]

theorem truthy_or_nil (x : Data) (h : x.truthy = true) : (if x.truthy then x else .nil) = x := by rw [if_pos h]

theorem decode_obj_truthy {key : Option Str} {l : List (Str × Json)} {x : Data} (h : decode ord key (.obj l) = some x) : x.truthy = true := by
  unfold decode at h
  rw [ofJson, convertValues] at h
  cases h1 : convertEntries (collect (ofEntries ord l)) with
  | none => rw [h1] at h; cases h
  | some m =>
    rw [h1, Option.bind_some, convertMap] at h
    cases h2 : convertDate m with
    | none => rw [h2] at h; cases h
    | some m' =>
      rw [h2] at h
      cases h
      rfl

theorem options_ok (F : Front E L) (ho : IsMapOrder F.ordm) (hs : IsOrder F.ord) {n : Nat} (hn : n < 2147483647) (src : E.Sources)
    {p : Parsed} (hp : OptionsOk p.options) :
    ∃ x, decode F.ord (some (str% "result")) (Wire.encOptions p.options) = some x ∧
      (ready n src (.ok p)).options F = (ready (n + 1) src (.ok p), some { ok := x }) := by
  obtain ⟨x, hx⟩ := decode_options hs (some (str% "result")) hp
  refine ⟨x, hx, ?_⟩
  unfold Pod.options ready
  rw [invoke_ready F ho hn (decMethod_plain (x := .options) (by simp)) rfl]
  dsimp only
  rw [Server.options, answer_result (p := .options p.options) rfl hx, truthy_or_nil _ (decode_obj_truthy hx)]
  rfl

theorem directives_ok (F : Front E L) (ho : IsMapOrder F.ordm) (hs : IsOrder F.ord) {n : Nat} (hn : n < 2147483647) (src : E.Sources)
    {p : Parsed} (hp : ∀ d ∈ p.directives, DatesOk d) :
    (ready n src (.ok p)).directives F = (ready (n + 1) src (.ok p),
      some { ok := .map [(str% "directives", .vec (p.directives.map fun d => ofDirective F.ord (withoutLostMeta d))), (str% "warnings", .nil)] }) := by
  unfold Pod.directives ready
  rw [invoke_ready F ho hn (decMethod_plain (x := .directives) (by simp)) rfl]
  dsimp only
  rw [Server.directives, answer_result (p := .directives p.directives) rfl
    (x := .map [(str% "directives", .vec (p.directives.map fun d => ofDirective F.ord (withoutLostMeta d))), (str% "warnings", .nil)])]
  · rfl
  · refine Entries.decode (ks := [str% "directives", str% "warnings"]) (.cons ?_ (.cons ?_ .nil)) (by decide) _
    · rw [field_plain (by decide)]
      exact decode_list rfl fun d hd => decode_directive hs none (hp d hd)
    · rw [field_plain (by decide), decode_null]

/-- The plugins as the client resolves them. -/
def resolvedOf (F : Front E L) (p : Parsed) (options : Data) : List Resolved := (p.plugins.map ofPlugin).map (resolvePlugin F options)

/-- The first two stages, if all plugins resolve. -/
theorem prepared (F : Front E L) (ho : IsMapOrder F.ordm) (hs : IsOrder F.ord) (src : E.Sources) {p : Parsed}
    (hp : OptionsOk p.options) (hd : ∀ d ∈ p.directives, DatesOk d)
    (hr : ∀ o, ∀ r ∈ resolvedOf F p o, r.err = none) :
    ∃ o, decode F.ord (some (str% "result")) (Wire.encOptions p.options) = some o ∧
      bindAll { pod := ready 1 src (.ok p) } ((stages F).take 2) = .ok
        { pod := ready 4 src (.ok p), plugins := some (resolvedOf F p o), options := o
          rawDirectives := some (p.directives.map fun d => ofDirective F.ord (withoutLostMeta d)) } := by
  obtain ⟨o, hx, h⟩ := options_ok F ho hs (n := 2) (by omega) src hp
  refine ⟨o, hx, ?_⟩
  have he : ((p.plugins.map ofPlugin).map (resolvePlugin F o)).filter (fun p => p.err.isSome) = [] := by
    rw [List.filter_eq_nil_iff]
    intro r hr'
    rw [hr o r hr']
    simp
  simp only [stages, List.take_succ_cons, List.take_zero, bindAll, Option.isSome_none, Bool.false_eq_true, if_false, getPluginsAndOptions,
    plugins_ok F ho (n := 1) (by omega), h, Data.truthy, if_true, Data.elems, he, List.isEmpty_nil]
  simp only [getRawDirectives, directives_ok F ho hs (n := 3) (by omega) src hd,
    Data.truthy, if_true]
  rfl

/-- Booking without plugins fails: the client learns no more than that. -/
theorem book_none_failure (F : Front E L) (ho : IsMapOrder F.ordm) {n : Nat} (hn : n < 2147483647) (src : E.Sources)
    {p : Parsed} {es : List IndexedReport} (hb : book L (F.orders n) (Server.bookOptions p.options) p.directives = .failure es) :
    ∃ pod sp, (ready n src (.ok p)).book F none = (pod, some { spanned := sp }) ∧
      (pod = ready (n + 1) src (.ok p) ∨ pod = { nextId := n + 1, server := none, served := n }) := by
  unfold Pod.book ready
  cases hr : Server.resolveReports E p.directives es with
  | none =>
    refine ⟨_, .nil, ?_, .inr rfl⟩
    rw [invoke_dies F ho hn (decMethod_plain (x := .book none) (by simp))]
    · rfl
    · simp [Server.healthy, Server.bookRequest, hb, hr]
  | some rs =>
    refine ⟨_, .vec (rs.map ofReport), ?_, .inl rfl⟩
    rw [invoke_ready F ho hn (decMethod_plain (x := .book none) (by simp)) (src' := src)
      (r := Server.errorReports (some (.int ((n + 1 : Nat) : Int))) rs)]
    · dsimp only
      rw [answer_reports]
    · simp [Server.healthy, Server.bookRequest, hb, hr]

end Clj
end Limabean
