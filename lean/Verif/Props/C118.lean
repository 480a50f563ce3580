/-
C118: the options in the session are those of the beanfile.

The map `*options*` of a session, clj/src/limabean/user.clj:18, 26-29, has every option of the beanfile under its name, with its value,
and has nothing else. Between the parser and the session lie the conversion, which splits the default tolerances into those for a
currency and that for all others, the JSON which the server writes, and what the front end makes of it.
-/
import Verif.Proofs.OptionLemmas

namespace Limabean

open Spec Clj

variable {E : Ext} {L : BookLib}

/-- **C118**: whatever becomes of the beanfile after parsing, with or without an error, the options of what was loaded are those which
the parser has read: texts, numbers and truth values as they were written, the last default tolerance for each currency and for all
others, and every value of an option which may be given several times. No other entry is there.

A currency called `dct` or `booking` would lose its tolerance; currencies have capital letters. -/
theorem C118_options (H : Convert.Hashes) (hH : FairHashes H) (F : Front E L) (ho : IsMapOrder F.ordm) (hs : IsOrder F.ord) (src : E.Sources)
    (s : Lima.Success) (hc : ∀ p ∈ s.options.inferredToleranceDefaults, p.1 ≠ some (str% "dct") ∧ p.1 ≠ some (str% "booking"))
    {m : LoadedBeans E} (h : loadBeanfile F (.ready src (.ok (Convert.parsed H s))) = .ok m) : ShowsOptions s.options m.options := by
  have hp : OptionsOk (Convert.parsed H s).options := by
    refine Convert.noDates_entries fun x hx => ?_
    obtain ⟨h1, h2⟩ := Convert.otherOptions_mem _ hx
    exact ⟨fun e => absurd h1 (by rw [e]; decide), h2⟩
  exact options_shown hH s.options hc (loaded_options F ho hs src hp h)

/-- **C118**: and the ledger was booked by those: the booking method, the multiplier and the switch which the session shows are those which
booking was given, and the default tolerances which booking was given are those which the session shows. -/
theorem C118_used (H : Convert.Hashes) (hH : FairHashes H) (F : Front E L) (ho : IsMapOrder F.ordm) (hs : IsOrder F.ord) (src : E.Sources)
    (s : Lima.Success) (hc : ∀ p ∈ s.options.inferredToleranceDefaults, p.1 ≠ some (str% "dct") ∧ p.1 ≠ some (str% "booking"))
    {m : LoadedBeans E} (h : loadBeanfile F (.ready src (.ok (Convert.parsed H s))) = .ok m) :
    let used := Server.bookOptions (Convert.parsed H s).options
    m.options.get (str% "booking-method") = orNil used.bookingMethod (fun b => .str (bookingName b)) ∧
    m.options.get (str% "inferred-tolerance-multiplier") = orNil used.tolerance.multiplier .num ∧
    m.options.get (str% "infer-tolerance-from-cost") = orNil used.tolerance.fromCost .bool ∧
    m.options.get (str% "inferred-tolerance-default-fallback") = orNil (lastDefault used.tolerance.defaults none) .num ∧
    ∀ c, (m.options.get (str% "inferred-tolerance-default")).get c = orNil (lastDefault used.tolerance.defaults (some c)) .num := by
  have g := C118_options H hH F ho hs src s hc h
  refine ⟨?_, ?_, ?_, g.toleranceElse, g.toleranceOf⟩
  · rw [g.bookingMethod]
    show _ = orNil (s.options.bookingMethod.map fun x => x.item) _
    cases s.options.bookingMethod <;> rfl
  · rw [g.multiplier]
    show _ = orNil (s.options.inferredToleranceMultiplier.map fun x => x.item) _
    cases s.options.inferredToleranceMultiplier <;> rfl
  · rw [g.fromCost]
    show _ = orNil (s.options.inferToleranceFromCost.map fun x => x.item) _
    cases s.options.inferToleranceFromCost <;> rfl

namespace Ex

/-- A ledger with options: two tolerances for a currency, of which the second counts, one for all others, a booking method. -/
def optioned : Lima.Success :=
  { read with options := { read.options with
      inferredToleranceDefaults := [(some nzd, ⟨5, 2⟩), (none, ⟨1, 1⟩), (some nzd, ⟨5, 3⟩)], bookingMethod := some (at_ 95 .fifo)
      inferredToleranceMultiplier := some (at_ 96 ⟨6, 1⟩), renderCommas := some (at_ 97 false), operatingCurrency := [nzd, usd, nzd] } }

/-- Some of the options after loading. -/
def optionsOf (s : Lima.Success) : Option (List Data) :=
  match loadBeanfile strictFront (.ready [] (.ok (Convert.parsed hashes s))) with
  | .error _ => none
  | .ok m => some [m.options.get (str% "title"), (m.options.get (str% "inferred-tolerance-default")).get nzd,
      (m.options.get (str% "inferred-tolerance-default")).get usd, m.options.get (str% "inferred-tolerance-default-fallback"),
      m.options.get (str% "booking-method"), m.options.get (str% "render-commas"), m.options.get (str% "operating-currency"),
      m.options.get (str% "documents")]

end Ex

/-- Non-vacuity of C118: a ledger which is loaded, and what its options are. -/
example : FairHashes Ex.hashes ∧ IsMapOrder Ex.strictFront.ordm ∧ IsOrder Ex.strictFront.ord ∧
    (∀ p ∈ Ex.optioned.options.inferredToleranceDefaults, p.1 ≠ some (str% "dct") ∧ p.1 ≠ some (str% "booking")) ∧
    (match Ex.optionsOf Ex.optioned with
      | some [.str t, .num a, .nil, .num b, .str k, .bool c, .vec [.str x, .str y], .nil] =>
        decide (t = str% "My ledger" ∧ a = ⟨5, 3⟩ ∧ b = ⟨1, 1⟩ ∧ k = str% "fifo" ∧ c = false ∧ x = Ex.usd ∧ y = Ex.nzd)
      | _ => false) = true :=
  ⟨Ex.hashes_fair, fun l => .refl l, fun l => .refl l, by decide, by decide +kernel⟩

end Limabean
