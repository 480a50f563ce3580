/-
C02: booking is all or nothing.
-/
import Verif.Proofs.Refine
import Verif.Props.Examples

namespace Limabean

/-- C02: booking answers with a booked ledger exactly for those ledgers in which each directive is acceptable after
those before it and no pad is left pending, as the reference semantics `Spec.Accepted` has it. -/
theorem C02_accepted_iff (L : BookLib) (hL : L.Lawful) (order : AMap Str (Account L) → AMap Str (Account L))
    (hf : ∀ m, (order m).Perm m) (o : BookOptions) (ds : List Raw.Directive) :
    (∃ out w, book L order o ds = .success out w) ↔ Spec.Accepted L o.bookingMethod o.tolerance ds :=
  accepted_iff hL hf o ds

/-- C02: a failure answer always carries at least one report. -/
theorem C02_failure_reports (L : BookLib) (order : AMap Str (Account L) → AMap Str (Account L)) (o : BookOptions)
    (ds : List Raw.Directive) (es : List IndexedReport) (h : book L order o ds = .failure es) : es ≠ [] :=
  let ⟨_, _, _, hne⟩ := collect_failure h
  hne

/-- An accepted ledger. -/
example : Spec.Accepted Toy.lib none {} Ex.ledger :=
  (C02_accepted_iff Toy.lib Toy.lib_lawful id Ex.fair_id {} Ex.ledger).1 ⟨_, _, Ex.ledger_ok⟩

/-- A ledger with a faulty balance among good directives is refused as a whole. -/
example : ¬ Spec.Accepted Toy.lib none {} (Ex.ledger ++ [Toy.mkBal 9 Ex.bank ⟨1, 0⟩ Ex.nzd, Toy.mkOpen 10 (str% "X")]) := by
  rw [← C02_accepted_iff Toy.lib Toy.lib_lawful id Ex.fair_id {}]
  rintro ⟨out, w, h⟩
  revert h
  have : ∃ es, book Toy.lib id {} (Ex.ledger ++ [Toy.mkBal 9 Ex.bank ⟨1, 0⟩ Ex.nzd, Toy.mkOpen 10 (str% "X")]) =
    .failure es := ⟨match book Toy.lib id {} (Ex.ledger ++ [Toy.mkBal 9 Ex.bank ⟨1, 0⟩ Ex.nzd, Toy.mkOpen 10 (str% "X")])
      with | .failure es => es | _ => [], by decide +kernel⟩
  obtain ⟨es, hes⟩ := this
  rw [hes]
  intro h
  cases h

end Limabean
