/-
C18: running holdings equal the sum of the returned postings.
-/
import Verif.Proofs.Refine
import Verif.Props.Examples

namespace Limabean

open Spec

variable {L : BookLib}

theorem held_single {st : State L} (hw : AMap.WF st.accounts) (hL : L.Lawful) (acc cur : Str) :
    st.held (fun a => a = acc) cur = (L.units ((st.inventory acc).getD L.empty) cur).val := by
  unfold State.held State.inventory
  have key : ∀ m : AMap Str (Account L), AMap.WF m →
      (m.map fun ka => if (decide (ka.1 = acc)) = true then (L.units ka.2.positions cur).val else 0).sum =
        (L.units (((AMap.get m acc).map fun a => a.positions).getD L.empty) cur).val := by
    intro m
    induction m with
    | nil => intro _; simp [hL.units_empty]
    | cons ka m ih =>
      obtain ⟨k, a⟩ := ka
      intro hw
      have hw' : AMap.WF m := by
        unfold AMap.WF AMap.keys at hw ⊢
        exact (List.nodup_cons.1 hw).2
      have hk : k ∉ AMap.keys m := by
        unfold AMap.WF AMap.keys at hw
        exact (List.nodup_cons.1 hw).1
      rw [List.map_cons, List.sum_cons, ih hw']
      by_cases hka : k = acc
      · subst hka
        have hn := (AMap.get_eq_none_iff m k).2 hk
        simp [hn, hL.units_empty, AMap.get]
      · have : AMap.get ((k, a) :: m) acc = AMap.get m acc := by simp [AMap.get, hka]
        simp [hka, this]
  exact key _ hw

/-- C18: after a successful booking, every account holds the sum of its postings in the returned ledger. -/
theorem C18_holdings (L : BookLib) (hL : L.Lawful) (order : AMap Str (Account L) → AMap Str (Account L))
    (o : BookOptions) (ds : List Raw.Directive) (out : List Booked.Directive) (w : List IndexedReport)
    (h : book L order o ds = .success out w) :
    ∃ r, Run.loop (envOf L o order) 0 ds {} = some r ∧ r.booked = out ∧
      ∀ acc cur, (L.units ((r.st.inventory acc).getD L.empty) cur).val = posted out acc cur := by
  obtain ⟨r, hl, he, hp, rfl, rfl⟩ := collect_success h
  refine ⟨r, hl, rfl, ?_⟩
  intro acc cur
  rw [← held_single (StInv.loop hl).wfA hL, held_loop hL hl he]
  simp [posted]

/-- A case: what is posted to Assets:Bank in the example ledger, including the pad. -/
example : posted Ex.out Ex.bank Ex.nzd = 100 ∧ posted Ex.out Ex.bank Ex.usd = 3 := by decide +kernel

end Limabean
