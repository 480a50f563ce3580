/-
C91: loading a beanfile again gives the same result.

What differs between two runs of the programs on the same files are the iteration orders of the server's hash maps (Rust seeds them at
random) and the identity hash codes of objects in the front end.
-/
import Verif.Proofs.OrdersLemmas
import Verif.Props.C40
import Verif.Props.C41

namespace Limabean

open Clj Spec

variable {E : Ext} {L : BookLib}

namespace Spec

/-- Two runs: they differ only in the iteration orders of hash maps, which yield every entry once, and in hash codes, which differ for
different objects. -/
structure TwoRuns (F F' : Front E L) : Prop where
  same : F' = { F with orders := F'.orders, hash := F'.hash }
  fair : ∀ n m, (F.orders n m).Perm m
  fair' : ∀ n m, (F'.orders n m).Perm m
  codes : Function.Injective F.hash
  codes' : Function.Injective F'.hash

/-- What was loaded is the same, except that the reports of a failed booking may come in another order. -/
inductive SameLoad : LoadedBeans E → LoadedBeans E → Prop
  | same (m : LoadedBeans E) : SameLoad m m
  | reports (m : LoadedBeans E) {l l' : List Data} : l.Perm l' →
      SameLoad { m with error := some (.booking (some l)) } { m with error := some (.booking (some l')) }

/-- Loading ends in the same way. -/
inductive SameLoading : Except (Option (Pod E)) (LoadedBeans E) → Except (Option (Pod E)) (LoadedBeans E) → Prop
  | exception (p) : SameLoading (.error p) (.error p)
  | loaded {m m'} : SameLoad m m' → SameLoading (.ok m) (.ok m')

end Spec

namespace Clj

variable (F : Front E L) (orders : Nat → AMap Str (Account L) → AMap Str (Account L)) (hash : Nat → Nat)

theorem bookRawDirectives_like (hf : ∀ n m, (F.orders n m).Perm m) (hf' : ∀ n m, (orders n m).Perm m) {m : LoadedBeans E}
    (h : m.pod.written = []) : ∃ m1 m2, bookRawDirectives F m = .ok m1 ∧ bookRawDirectives (F.other orders hash) m = .ok m2 ∧
      SameLoad m1 m2 := by
  obtain ⟨h1, h2⟩ := book_like F orders hash hf hf' h m.rawXfDirectives
  have ht : (F.other orders hash).txt = F.txt := rfl
  unfold bookRawDirectives
  generalize Pod.book F m.pod m.rawXfDirectives = x at h1 h2 ⊢
  generalize Pod.book (F.other orders hash) m.pod m.rawXfDirectives = y at h1 h2 ⊢
  obtain ⟨p, a⟩ := x
  obtain ⟨q, b⟩ := y
  dsimp only at h1 h2 ⊢
  subst h1
  rw [ht]
  cases h2 with
  | same a =>
    cases a with
    | none => exact ⟨_, _, rfl, rfl, .same _⟩
    | some r =>
      dsimp only
      split <;> exact ⟨_, _, rfl, rfl, .same _⟩
  | spanned hp => exact ⟨_, _, rfl, rfl, .same _⟩
  | @indexed l l' hp =>
    refine ⟨_, _, rfl, rfl, ?_⟩
    rcases all_permuted (fun r => resolveReportFromRaw F.txt r (Data.vec ((m.rawXfDirectives.or m.rawDirectives).getD []))) hp with
      ⟨h3, h4⟩ | ⟨n, n', h3, h4, h5⟩
    · simp only [resolveReportsFromRaw, Data.elems, h3, h4]
      exact .same _
    · simp only [resolveReportsFromRaw, Data.elems, h3, h4]
      exact .reports { m with pod := q } h5

end Clj

/-- **C91.** Loading the same beanfile in another run ends in the same way, and if it ends with a result, that is the same in all of its
parts: plugins, options, directives at every stage, registry, warnings and error; only the reports of a failed booking may come in
another order. -/
theorem C91_again {F F' : Front E L} (h : TwoRuns F F') (ho : IsMapOrder F.ordm) (s : Server E) :
    SameLoading (loadBeanfile F s) (loadBeanfile F' s) := by
  obtain ⟨h0, hf, hf', hi, hi'⟩ := h
  have : F' = F.other F'.orders F'.hash := h0
  rw [this]
  generalize F'.orders = orders at hf' ⊢
  generalize F'.hash = hash at hi' ⊢
  clear this h0
  unfold loadBeanfile
  rw [start_other F ho]
  cases hs : Pod.start F s with
  | error p => exact .exception p
  | ok pod =>
    have hq : pod.written = [] := by
      unfold Pod.start at hs
      dsimp only at hs
      split at hs
      · cases hs
      · split at hs
        · cases hs
        · cases hs
          exact invoke_same_quiet F rfl _ _
    dsimp only
    simp only [stages, getPluginsAndOptions_other F ho, getRawDirectives_other F ho, runPluginsStage_other F ho orders hash hi hi',
      setRegistry_other]
    rw [show [getPluginsAndOptions F, getRawDirectives F, runPluginsStage F true, bookRawDirectives F, runPluginsStage F false,
        setDirectives, setRegistry F] = [getPluginsAndOptions F, getRawDirectives F, runPluginsStage F true] ++
        (bookRawDirectives F :: [runPluginsStage F false, setDirectives, setRegistry F]) from rfl,
      show [getPluginsAndOptions F, getRawDirectives F, runPluginsStage F true, bookRawDirectives (F.other orders hash),
        runPluginsStage F false, setDirectives, setRegistry F] = [getPluginsAndOptions F, getRawDirectives F, runPluginsStage F true] ++
        (bookRawDirectives (F.other orders hash) :: [runPluginsStage F false, setDirectives, setRegistry F]) from rfl,
      bindAll_append, bindAll_append]
    have hpre : ∀ fs : List (Stage E), (∀ f ∈ fs, ∀ m m' : LoadedBeans E, m.pod.written = [] → f m = .ok m' → m'.pod.written = []) →
        ∀ m m' : LoadedBeans E, m.pod.written = [] → bindAll m fs = .ok m' → m'.pod.written = [] := by
      intro fs
      induction fs with
      | nil => intro _ m m' h1 h2; cases h2; exact h1
      | cons f fs ih =>
        intro hfs m m' h1 h2
        rw [bindAll] at h2
        split at h2
        · exact ih (fun g hg => hfs g (by simp [hg])) m m' h1 h2
        · split at h2
          · cases h2
          · rename_i m1 hm1
            exact ih (fun g hg => hfs g (by simp [hg])) m1 m' (hfs f (by simp) m m1 h1 hm1) h2
    cases hm : bindAll { pod := pod } [getPluginsAndOptions F, getRawDirectives F, runPluginsStage F true] with
    | error p => exact .exception _
    | ok m =>
      have hw : m.pod.written = [] := by
        refine hpre _ ?_ _ _ hq hm
        intro f hf
        simp only [List.mem_cons, List.not_mem_nil, or_false] at hf
        rcases hf with rfl | rfl | rfl
        · exact fun _ _ => getPluginsAndOptions_quiet F
        · exact fun _ _ => getRawDirectives_quiet F
        · exact fun _ _ => runPluginsStage_quiet F true
      dsimp only
      by_cases he : m.error.isSome
      · rw [bindAll_error he, bindAll_error he]
        exact .loaded (.same m)
      · obtain ⟨m1, m2, h1, h2, h3⟩ := bookRawDirectives_like F orders hash hf hf' hw
        rw [bindAll, if_neg he, bindAll, if_neg he, h1, h2]
        dsimp only
        cases h3 with
        | same m1 =>
          cases bindAll m1 [runPluginsStage F false, setDirectives, setRegistry F] with
          | error p => exact .exception _
          | ok m' => exact .loaded (.same m')
        | reports m1 hp =>
          rw [bindAll_error rfl, bindAll_error rfl]
          exact .loaded (.reports m1 hp)

/-- **C91**, ledgers which are accepted: what is loaded is the same in every run. -/
theorem C91_accepted {F F' : Front E L} (h : TwoRuns F F') (ho : IsMapOrder F.ordm) {s : Server E} {m : LoadedBeans E}
    (hm : loadBeanfile F s = .ok m) (he : m.error = none) : loadBeanfile F' s = .ok m := by
  have := C91_again h ho s
  rw [hm] at this
  generalize loadBeanfile F' s = x at this ⊢
  cases this with
  | loaded h => cases h with
    | same => rfl
    | reports => cases he

namespace Ex

/-- Two pads which are not used. -/
def twoPads : List Raw.Directive :=
  [Toy.mkOpen 1 bank, Toy.mkOpen 1 food, { Toy.mkPad 2 bank equity with span := some ⟨0, 10, 20⟩ },
    { Toy.mkPad 3 food equity with span := some ⟨0, 30, 40⟩ }]

/-- Another run. -/
def otherRun (F : Front Toy.ext Toy.lib) : Front Toy.ext Toy.lib := { F with orders := fun _ => List.reverse, hash := (· + 5) }

theorem twoRuns {F : Front Toy.ext Toy.lib} (ho : F.orders = fun _ m => m) (hh : F.hash = id) : TwoRuns F (otherRun F) where
  same := rfl
  fair n m := by rw [ho]
  fair' _ m := List.reverse_perm m
  codes := by rw [hh]; exact Function.injective_id
  codes' a b h := by simpa [otherRun] using h

end Ex

/-- A case: an accepted ledger. -/
example : ∃ m, loadBeanfile Ex.passingFront (Ex.withPlugin Ex.ledger) = .ok m ∧
    loadBeanfile (Ex.otherRun Ex.passingFront) (Ex.withPlugin Ex.ledger) = .ok m := by
  have h : (match loadBeanfile Ex.passingFront (Ex.withPlugin Ex.ledger) with
    | .ok m => m.error.isNone | .error _ => false) = true := by decide +kernel
  cases hm : loadBeanfile Ex.passingFront (Ex.withPlugin Ex.ledger) with
  | error p => rw [hm] at h; cases h
  | ok m =>
    rw [hm] at h
    exact ⟨m, rfl, C91_accepted (Ex.twoRuns rfl rfl) (fun _ => .refl _) hm (by simpa using h)⟩

/-- The reports of a failed booking do come in another order: **C91 is false** without the exception. -/
theorem C91_order : Ex.bookingSpans (Ex.loadError Ex.passingFront (Ex.withPlugin Ex.twoPads)) ≠
    Ex.bookingSpans (Ex.loadError (Ex.otherRun Ex.passingFront) (Ex.withPlugin Ex.twoPads)) ∧
    TwoRuns Ex.passingFront (Ex.otherRun Ex.passingFront) :=
  ⟨by decide +kernel, Ex.twoRuns rfl rfl⟩

end Limabean
