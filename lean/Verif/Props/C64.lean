/-
C64: the session's variables are those of the last load: nothing of earlier loads remains, and they agree with each other.
-/
import Verif.Clj.App
import Verif.Props.C61

namespace Limabean

open Clj Spec

variable {E : Ext} {L : BookLib}

namespace Spec

/-- The variables after some loads. -/
def loads (F : Front E L) (g : Globals E) : List (Str × Option (Server E)) → Globals E
  | [] => g
  | x :: xs => loads F (userLoad F g x.1 x.2).1 xs

/-- The variables agree: without a ledger they are empty; with an error there are no directives; otherwise the directives are those which
the last plugin or booking returned, and the registry was built from them and the options. -/
def Agree (F : Front E L) (g : Globals E) : Prop :=
  match g.beans with
  | none => g.directives = some [] ∧ g.options = .map [] ∧ g.registry = none
  | some m =>
    (∀ e, m.error = some e → g.directives = some [] ∧ g.registry = none) ∧
    (m.error = none → ∃ ds r, g.directives = some ds ∧ m.directives = some ds ∧ g.options = m.options ∧ F.registry ds g.options = some r ∧
      g.registry = some r ∧ m.registry = some r ∧ (m.bookedXfDirectives = some ds ∨ m.bookedXfDirectives = none ∧ m.bookedDirectives = some ds))

end Spec

namespace Clj

/-- Before the directives are set. -/
structure Early (m : LoadedBeans E) : Prop where
  directives : m.directives = none
  registry : m.registry = none

theorem first_early (F : Front E L) {m m' : LoadedBeans E} (h : Early m) (hm : getPluginsAndOptions F m = .ok m') :
    Early m' ∧ (m'.error = none → m'.plugins.isSome = true) := by
  unfold getPluginsAndOptions at hm
  split at hm
  · cases hm
  · split at hm
    · split at hm
      · cases hm
      · cases hm
        exact ⟨⟨h.1, h.2⟩, fun _ => rfl⟩
    · cases hm
      exact ⟨⟨h.1, h.2⟩, fun e => by cases e⟩

theorem raw_early (F : Front E L) {m m' : LoadedBeans E} (h : Early m) (hm : getRawDirectives F m = .ok m') :
    Early m' ∧ m'.plugins = m.plugins := by
  unfold getRawDirectives at hm
  split at hm
  · cases hm
  · split at hm
    · cases hm
      exact ⟨⟨h.1, h.2⟩, rfl⟩
    · cases hm

theorem plugins_early (F : Front E L) (raw : Bool) {m m' : LoadedBeans E} (h : Early m) (hm : runPluginsStage F raw m = .ok m') :
    Early m' ∧ m'.plugins = m.plugins ∧ m'.bookedDirectives = m.bookedDirectives ∧
      (raw = true → m'.bookedXfDirectives = m.bookedXfDirectives) := by
  unfold runPluginsStage at hm
  dsimp only at hm
  split at hm
  · cases hm
    exact ⟨h, rfl, rfl, fun _ => rfl⟩
  · split at hm
    · cases hm
      exact ⟨⟨h.1, h.2⟩, rfl, rfl, fun _ => rfl⟩
    · cases hm
      exact ⟨⟨h.1, h.2⟩, rfl, rfl, fun h => by simp [h]⟩

theorem book_early (F : Front E L) {m m' : LoadedBeans E} (h : Early m) (he : m.error = none) (hm : bookRawDirectives F m = .ok m') :
    Early m' ∧ m'.plugins = m.plugins ∧ (m'.error = none → m'.bookedDirectives.isSome = true) := by
  unfold bookRawDirectives at hm
  dsimp only at hm
  split at hm
  · cases hm
    exact ⟨⟨h.1, h.2⟩, rfl, fun e => by cases e⟩
  · split at hm
    · cases hm
      exact ⟨⟨h.1, h.2⟩, rfl, fun _ => rfl⟩
    · cases hm
      exact ⟨⟨h.1, h.2⟩, rfl, fun e => by cases e⟩

theorem bind_cons {m m' : LoadedBeans E} {f : Stage E} {fs : List (Stage E)} (h : bindAll m (f :: fs) = .ok m') (he : m.error = none) :
    ∃ m1, f m = .ok m1 ∧ bindAll m1 fs = .ok m' := by
  rw [bindAll, if_neg (by simp [he])] at h
  split at h
  · cases h
  · rename_i m1 h1
    exact ⟨m1, h1, h⟩

/-- What loading leaves. -/
def Final (F : Front E L) (m : LoadedBeans E) : Prop :=
  (∀ e, m.error = some e → m.directives = none ∧ m.registry = none) ∧
    (m.error = none → m.plugins.isSome = true ∧ ∃ ds r, m.directives = some ds ∧ F.registry ds m.options = some r ∧ m.registry = some r ∧
      (m.bookedXfDirectives = some ds ∨ m.bookedXfDirectives = none ∧ m.bookedDirectives = some ds))

theorem Final.stopped (F : Front E L) {m m1 : LoadedBeans E} {fs : List (Stage E)} {e : LoadError} (h : Early m1) (he : m1.error = some e)
    (hb : bindAll m1 fs = .ok m) : Final F m := by
  rw [bindAll_error (by simp [he])] at hb
  cases hb
  exact ⟨fun _ _ => ⟨h.1, h.2⟩, fun e => by simp [he] at e⟩

theorem load_final (F : Front E L) {s : Server E} {m : LoadedBeans E} (h : loadBeanfile F s = .ok m) : Final F m := by
  unfold loadBeanfile at h
  split at h
  · cases h
  · rename_i pod hpod
    split at h
    · cases h
    · rename_i m' hb
      cases h
      obtain ⟨m1, h1, hb⟩ := bind_cons hb rfl
      obtain ⟨e1, p1⟩ := first_early F (m := { pod := pod }) ⟨rfl, rfl⟩ h1
      cases r1 : m1.error with
      | some e => exact .stopped F e1 r1 hb
      | none =>
      obtain ⟨m2, h2, hb⟩ := bind_cons hb r1
      obtain ⟨e2, p2⟩ := raw_early F e1 h2
      cases r2 : m2.error with
      | some e => exact .stopped F e2 r2 hb
      | none =>
      obtain ⟨m3, h3, hb⟩ := bind_cons hb r2
      obtain ⟨e3, p3, -⟩ := plugins_early F true e2 h3
      cases r3 : m3.error with
      | some e => exact .stopped F e3 r3 hb
      | none =>
      obtain ⟨m4, h4, hb⟩ := bind_cons hb r3
      obtain ⟨e4, p4, b4⟩ := book_early F e3 r3 h4
      cases r4 : m4.error with
      | some e => exact .stopped F e4 r4 hb
      | none =>
      obtain ⟨m5, h5, hb⟩ := bind_cons hb r4
      obtain ⟨e5, p5, b5, -⟩ := plugins_early F false e4 h5
      cases r5 : m5.error with
      | some e => exact .stopped F e5 r5 hb
      | none =>
      obtain ⟨m6, h6, hb⟩ := bind_cons hb r5
      cases h6
      obtain ⟨m7, h7, hb⟩ := bind_cons hb r5
      cases hb
      unfold setRegistry at h7
      split at h7
      · cases h7
      · rename_i r hr
        cases h7
        refine ⟨fun e he => by simp [r5] at he, fun _ => ⟨?_, _, r, rfl, hr, rfl, ?_⟩⟩
        · dsimp only
          rw [p5, p4, p3, p2]
          exact p1 r1
        · dsimp only
          cases hx : m5.bookedXfDirectives with
          | some l => exact .inl rfl
          | none =>
            refine .inr ⟨rfl, ?_⟩
            obtain ⟨l, hl⟩ := Option.isSome_iff_exists.1 (b4 r4)
            rw [b5, hl]
            rfl

end Clj

/-- C64: what the variables are after any loads depends on the last one only, whatever they were before. -/
theorem C64_last (F : Front E L) (g : Globals E) (xs : List (Str × Option (Server E))) (path : Str) (s : Option (Server E)) :
    loads F g (xs ++ [(path, s)]) = (userLoad F {} path s).1 := by
  have fresh : ∀ g g' : Globals E, userLoad F g path s = userLoad F g' path s := by
    intro g g'
    have h : g.assign none = g'.assign none := rfl
    simp only [userLoad, h]
  induction xs generalizing g with
  | nil => exact congrArg Prod.fst (fresh g {})
  | cons x xs ih => exact ih _

/-- C64: after any loads the variables agree with each other. -/
theorem C64_agree (F : Front E L) (g : Globals E) (xs : List (Str × Option (Server E))) (h : xs ≠ []) : Agree F (loads F g xs) := by
  obtain ⟨xs, x, rfl⟩ : ∃ ys y, xs = ys ++ [y] := ⟨xs.dropLast, xs.getLast h, (List.dropLast_append_getLast h).symm⟩
  rw [C64_last]
  obtain ⟨path, s⟩ := x
  have none_ok : Agree F (Globals.assign ({} : Globals E) none) := ⟨rfl, rfl, rfl⟩
  cases s with
  | none => exact none_ok
  | some s =>
    simp only [userLoad]
    cases hm : loadBeanfile F s with
    | error p => exact none_ok
    | ok m =>
      dsimp only
      split
      · obtain ⟨h1, h2⟩ := load_final F hm
        refine ⟨fun e he => ?_, fun he => ?_⟩
        · obtain ⟨h3, h4⟩ := h1 e he
          exact ⟨by simp [Globals.assign, h3], h4⟩
        · obtain ⟨h3, ds, r, h4, h5, h6, h7⟩ := h2 he
          exact ⟨ds, r, by simp [Globals.assign, h4], h4, by simp [Globals.assign, h3], by simp [Globals.assign, h3, h5], h6, h6, h7⟩
      · exact none_ok

/-- C64: the last load has failed or ended with an error: there are no directives, so no reports of another ledger. -/
theorem C64_failed (F : Front E L) (g : Globals E) (xs : List (Str × Option (Server E))) (path : Str) (s : Option (Server E))
    (h : ∀ s' m, s = some s' → loadBeanfile F s' = .ok m → m.error ≠ none) :
    (loads F g (xs ++ [(path, s)])).directives = some [] ∧ (loads F g (xs ++ [(path, s)])).registry = none := by
  rw [C64_last]
  cases s with
  | none => exact ⟨rfl, rfl⟩
  | some s =>
    simp only [userLoad]
    cases hm : loadBeanfile F s with
    | error p => exact ⟨rfl, rfl⟩
    | ok m =>
      dsimp only
      split
      · obtain ⟨e, he⟩ := Option.ne_none_iff_exists'.1 (h s m rfl hm)
        obtain ⟨h3, h4⟩ := (load_final F hm).1 e he
        exact ⟨by simp [Globals.assign, h3], h4⟩
      · exact ⟨rfl, rfl⟩

/-- C64: a beanfile without plugins which the parser accepts and which books: whatever was loaded before, the variables hold its booked
directives, the lines with the numbers of directives before and after are printed and nothing else. -/
theorem C64_loaded (H : Convert.Hashes) (h : FairHashes H) (F : Front E L) (ho : IsMapOrder F.ordm) (hs : IsOrder F.ord)
    (hreg : ∀ l o, F.registry l o ≠ none) (hL : DatesExist L) (src : E.Sources) (s : Lima.Success)
    (hd : ∀ d ∈ s.directives, SourceOk d.item) (hp : s.plugins = []) {out : List Booked.Directive} {w : List IndexedReport}
    (hb : book L (F.orders 4) (Server.bookOptions (Convert.parsed H s).options) (s.directives.map (Convert.directive H)) = .success out w)
    (g : Globals E) (xs : List (Str × Option (Server E))) (path : Str) :
    ∃ l, (loads F g (xs ++ [(path, some (.ready src (.ok (Convert.parsed H s))))])).directives = some l ∧
      List.Forall₂ (LoadedAs F.ord (s.directives.map (Convert.directive H))) (out.map withoutLostBooked) l ∧
      ∃ n, (userLoad F g path (some (.ready src (.ok (Convert.parsed H s))))).2 = ([.loaded n path, .result out.length], true) := by
  obtain ⟨m, l, h1, h2, h3, h4⟩ := C61_loaded H h F ho hs hreg hL src s hd hp hb
  have h5 : l.length = out.length := by rw [← h4.length_eq, List.length_map]
  refine ⟨l, ?_, h4, (m.rawDirectives.getD []).length, ?_⟩
  · rw [C64_last]
    simp [userLoad, h1, h2, printErrors, Globals.assign, h3]
  · simp [userLoad, h1, h2, printErrors, h3, h5]

namespace Ex

/-- The variables, as far as they can be compared. -/
def seen (g : Globals Toy.ext) : Option Nat × Bool × Bool × Bool :=
  (g.directives.map List.length, g.beans.isSome, g.registry.isSome, g.options matches .map (_ :: _))

/-- A beanfile with a syntax error. -/
def unparsable : Server Toy.ext := .ready [] (.error [{ message := str% "syntax", reason := str% "unexpected", span := { source := 0, start := 0, stop := 1 } }])

end Ex

/-- Non-vacuity: the variables after a ledger, after one with an error, after a failure to start the server, and after the first ledger
again. -/
example : Ex.seen (loads Ex.front {} [(str% "a", some (Toy.server Ex.ledger))]) = (some Ex.out.length, true, true, true) ∧
    Ex.seen (loads Ex.front {} [(str% "a", some (Toy.server Ex.ledger)), (str% "b", some Ex.unparsable)]) = (some 0, true, false, false) ∧
    Ex.seen (loads Ex.front {} [(str% "a", some (Toy.server Ex.ledger)), (str% "b", some Ex.unparsable), (str% "c", none)]) =
      (some 0, false, false, false) ∧
    Ex.seen (loads Ex.front {} [(str% "c", none), (str% "a", some (Toy.server Ex.ledger))]) = (some Ex.out.length, true, true, true) := by
  refine ⟨?_, ?_, ?_, ?_⟩ <;> decide +kernel

end Limabean
