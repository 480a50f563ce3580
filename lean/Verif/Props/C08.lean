/-
C08: no unused pad survives a successful booking.
-/
import Verif.Proofs.Pads
import Verif.Props.C07

namespace Limabean

open Spec

/-- C08: in a returned ledger each pad is followed by its transaction, which has exactly two postings: on the padded
account and on the source, with opposite amounts of one currency. -/
theorem C08_no_unused_pad (L : BookLib) (order : AMap Str (Account L) → AMap Str (Account L))
    (hf : ∀ m, (order m).Perm m) (o : BookOptions) (ds : List Raw.Directive) (out : List Booked.Directive)
    (w : List IndexedReport) (h : book L order o ds = .success out w)
    (o1 : List Booked.Directive) (x : Booked.Directive) (rest : List Booked.Directive) (p : Raw.Pad)
    (hout : out = o1 ++ x :: rest) (hx : x.variant = .pad p) :
    ∃ y o2 t cur gap, rest = y :: o2 ∧ y.variant = .transaction t ∧
      t.postings = padPostings cur gap p.acc p.source := by
  have hfair : (envOf L o order).Fair := hf
  obtain ⟨r, hl, he, hp, hb, -⟩ := collect_success h
  rw [leftOverPads_nil hfair] at hp
  have hd : r.booked[o1.length]? = some x := by rw [hb, hout]; simp
  rcases FilledInv.loop hl he o1.length x p hd hx with ⟨e, hpad⟩ | ⟨d2, t, cur, m, h1, h2, h3⟩
  · obtain ⟨a, ha, hap⟩ := State.padOf_some.1 hpad
    have := hp (p.acc, a) (AMap.mem_of_get ha)
    simp only at this
    rw [this] at hap
    cases hap
  · rw [hb, hout] at h1
    cases rest with
    | nil => simp at h1
    | cons y o2 =>
      have : y = d2 := by
        rw [show o1 ++ x :: y :: o2 = (o1 ++ [x]) ++ y :: o2 by simp, List.getElem?_append_right (by simp)] at h1
        simpa using h1
      subst this
      exact ⟨y, o2, t, cur, m, rfl, h2, h3⟩

/-- A case: the sixth directive is a pad. -/
example : ∃ x rest p, Ex.out = Ex.out.take 5 ++ x :: rest ∧ x.variant = .pad p ∧ p.acc = Ex.bank :=
  ⟨{ idx := 5, date := Toy.day 2, variant := .pad { acc := Ex.bank, source := Ex.equity } }, Ex.out.drop 6, _,
    by decide +kernel, rfl, rfl⟩

/-- A pad which nothing needs makes the booking fail. -/
example : (match Toy.run [Toy.mkOpen 1 Ex.equity, Toy.mkOpen 1 Ex.bank, Toy.mkPad 2 Ex.bank Ex.equity,
      Toy.mkBal 3 Ex.bank ⟨0, 0⟩ Ex.nzd] with
    | .failure [r] => r.reason == .unusedNoAdjustment
    | _ => false) = true := by decide +kernel

end Limabean
