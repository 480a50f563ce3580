/-
C01: the booked ledger is the order-preserving image of the input.
-/
import Verif.Proofs.Image
import Verif.Props.Examples

namespace Limabean

/-- C01: when booking succeeds, the booked directives are the image of the input directives, position by position, and
each pad is followed by one generated transaction. -/
theorem C01_image (L : BookLib) (order : AMap Str (Account L) → AMap Str (Account L)) (o : BookOptions)
    (ds : List Raw.Directive) (out : List Booked.Directive) (w : List IndexedReport)
    (h : book L order o ds = .success out w) : Spec.Image 0 ds out := by
  obtain ⟨r, hl, he, -, rfl, -⟩ := collect_success h
  exact image_loop hl he

theorem image_length {n : Nat} {ds : List Raw.Directive} {out : List Booked.Directive} (h : Spec.Image n ds out) :
    out.length = ds.length + (ds.filter Spec.isPad).length := by
  induction h with
  | nil => rfl
  | single hp _ _ _ ih => simp [hp, ih]; omega
  | padded hp _ _ _ _ _ ih => simp [hp, ih]; omega

/-- C01: so the number of booked directives is that of the input plus one for each pad. -/
theorem C01_length (L : BookLib) (order : AMap Str (Account L) → AMap Str (Account L)) (o : BookOptions)
    (ds : List Raw.Directive) (out : List Booked.Directive) (w : List IndexedReport)
    (h : book L order o ds = .success out w) : out.length = ds.length + (ds.filter Spec.isPad).length :=
  image_length (C01_image L order o ds out w h)

/-- A case with a pad, transactions and balances. -/
example : Spec.Image 0 Ex.ledger Ex.out := C01_image Toy.lib id {} _ _ _ Ex.ledger_ok

example : Ex.out.map (fun d => d.idx) = [0, 1, 2, 3, 4, 5, 5, 6, 7, 8, 9, 10] := by decide +kernel

end Limabean
