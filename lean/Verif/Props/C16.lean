/-
C16: independence from hash iteration order.
-/
import Verif.Proofs.Rename
import Verif.Props.Examples

namespace Limabean

variable {L : BookLib}

theorem ElementIdx.rename_id (e : ElementIdx) : e.rename id = e := rfl

theorem IndexedReport.rename_id (r : IndexedReport) : r.rename id = r := by
  unfold IndexedReport.rename
  obtain ⟨a, b, c, d⟩ := r
  have : (ElementIdx.rename id) = id := rfl
  cases c <;> simp [this, ElementIdx.rename_id]

theorem Booked.Directive.rename_id (d : Booked.Directive) : d.rename id = d := by
  obtain ⟨idx, date, tags, links, md, v⟩ := d
  cases v with
  | balance b =>
    obtain ⟨raw, up, mg⟩ := b
    cases up <;> rfl
  | _ => rfl

theorem AMap.mapV_id {K V : Type} (g : V → V) (hg : ∀ v, g v = v) (m : AMap K V) : AMap.mapV g m = m := by
  unfold AMap.mapV
  conv => rhs; rw [← List.map_id m]
  apply List.map_congr_left
  intro x _
  simp [hg]

theorem Account.rename_id (a : Account L) : a.rename id = a := by
  obtain ⟨al, po, op, pd, wi, bo⟩ := a
  cases pd <;> rfl

theorem Run.rename_id (r : Run L) : r.rename id = r := by
  obtain ⟨⟨op, cl, ac, wa⟩, bk, er⟩ := r
  simp only [Run.rename, State.rename, Run.mk.injEq, State.mk.injEq]
  have h1 : ∀ l : List IndexedReport, l.map (IndexedReport.rename id) = l := by
    intro l
    conv => rhs; rw [← List.map_id l]
    exact List.map_congr_left fun x _ => IndexedReport.rename_id x
  refine ⟨⟨?_, ?_, ?_, h1 _⟩, ?_, h1 _⟩
  · exact AMap.mapV_id _ ElementIdx.rename_id _
  · exact AMap.mapV_id _ ElementIdx.rename_id _
  · exact AMap.mapV_id _ Account.rename_id _
  · conv => rhs; rw [← List.map_id bk]
    exact List.map_congr_left fun x _ => Booked.Directive.rename_id x

theorem loop_sameEnv {env env' : Env L} (he : SameEnv env env') (n : Nat) (ds : List Raw.Directive) (r : Run L) :
    Run.loop env' n ds r = Run.loop env n ds r := by
  have := Run.rename_loop id he n n (by simp) ds r
  rw [Run.rename_id] at this
  rw [this]
  cases Run.loop env n ds r <;> simp [Run.rename_id]

/-- Outcomes are the same, up to the order of the trailing reports on left-over pads. -/
def SameOutcome : Outcome → Outcome → Prop
  | .success out w, .success out' w' => out = out' ∧ w = w'
  | .failure es, .failure es' => ∃ a b b', es = a ++ b ∧ es' = a ++ b' ∧ b.Perm b' ∧
      ∀ rep ∈ b, rep.reason = .unusedNoBalance
  | .panic, .panic => True
  | _, _ => False

/-- C16: the outcome is the same for any two iteration orders, up to the order of the trailing reports. -/
theorem C16_order_independent (L : BookLib) (order order' : AMap Str (Account L) → AMap Str (Account L))
    (hf : ∀ m, (order m).Perm m) (hf' : ∀ m, (order' m).Perm m) (o : BookOptions) (ds : List Raw.Directive) :
    SameOutcome (book L order o ds) (book L order' o ds) := by
  have he : SameEnv (envOf L o order) (envOf L o order') := ⟨rfl, rfl, hf, hf'⟩
  unfold book collect
  rw [loop_sameEnv he]
  cases Run.loop (envOf L o order) 0 ds {} with
  | none => trivial
  | some r =>
    simp only [Run.validate]
    have hp : (r.st.leftOverPads (envOf L o order)).Perm (r.st.leftOverPads (envOf L o order')) := by
      unfold State.leftOverPads
      exact ((hf _).trans (hf' _).symm).filterMap _
    have hiff : (r.errors ++ r.st.leftOverPads (envOf L o order)).isEmpty =
        (r.errors ++ r.st.leftOverPads (envOf L o order')).isEmpty := by
      rw [Bool.eq_iff_iff, List.isEmpty_iff, List.isEmpty_iff, ← List.length_eq_zero_iff, ← List.length_eq_zero_iff,
        List.length_append, List.length_append, hp.length_eq]
    rw [← hiff]
    split
    · exact ⟨rfl, rfl⟩
    · refine ⟨r.errors, _, _, rfl, rfl, hp, ?_⟩
      intro rep hr
      simp only [State.leftOverPads, List.mem_filterMap, Option.map_eq_some_iff] at hr
      obtain ⟨ka, -, p, -, rfl⟩ := hr
      rfl

/-- A case: with two left-over pads, reversing the order of the accounts does reverse the trailing reports. -/
example : book Toy.lib id {} [Toy.mkOpen 1 Ex.bank, Toy.mkOpen 1 Ex.food, Toy.mkPad 2 Ex.bank Ex.equity,
    Toy.mkPad 3 Ex.food Ex.equity] ≠
    book Toy.lib List.reverse {} [Toy.mkOpen 1 Ex.bank, Toy.mkOpen 1 Ex.food, Toy.mkPad 2 Ex.bank Ex.equity,
    Toy.mkPad 3 Ex.food Ex.equity] := by decide +kernel

example : SameOutcome (book Toy.lib id {} Ex.ledger) (book Toy.lib List.reverse {} Ex.ledger) :=
  C16_order_independent Toy.lib id List.reverse Ex.fair_id (fun m => List.reverse_perm m) {} Ex.ledger

end Limabean
