/-
C19: splitting a reduction over several lots loses nothing.

Everything but the price: the booked postings of a posting at cost have no price, whatever the input says
(`C19_price_dropped`).
-/
import Verif.Props.C17
import Verif.Proofs.Extend
import Verif.Props.Examples

namespace Limabean

open Spec

variable {L : BookLib}

/-- C19, partial: every transaction of the input is in the returned ledger, and its postings are the images of the input
postings under some answer of the library for this transaction: one posting without cost, or one per lot; with position,
account, flag, tags, links, metadata and currency of the input posting. Their units add up to the interpolated units.
Missing: the price of a posting at cost, which is dropped. -/
theorem C19_split_partial (L : BookLib) (hL : L.Lawful) (order : AMap Str (Account L) → AMap Str (Account L))
    (o : BookOptions) (ds : List Raw.Directive) (out : List Booked.Directive)
    (w : List IndexedReport) (h : book L order o ds = .success out w) (pre post : List Raw.Directive)
    (raw : Raw.Directive) (t : Raw.Transaction) (hds : ds = pre ++ raw :: post) (hv : raw.variant = .transaction t) :
    ∃ d ∈ out, ∃ t' res inv, d.idx = pre.length ∧ d.variant = .transaction t' ∧
      L.book raw.date t.postings o.tolerance inv (methodAt L o.bookingMethod pre) = .ok res ∧
      PostingsImage 0 t.postings res.interpolated t'.postings ∧
      ∀ (i : Nat) ip, res.interpolated[i]? = some ip →
        (((t'.postings.filter fun q => q.idx = some i).map fun q => q.units.val).sum = ip.units.val) := by
  obtain ⟨r, hl, he, -, rfl, -⟩ := collect_success h
  subst hds
  rw [List.append_cons, Run.loop_append] at hl
  cases hl1 : Run.loop (envOf L o order) 0 (pre ++ [raw]) {} with
  | none => rw [hl1] at hl; cases hl
  | some r1 =>
    rw [hl1, Option.bind_some] at hl
    obtain ⟨r0, hl0, hs⟩ := Run.loop_snoc.1 hl1
    have hi1 := StInv.loop hl1
    have hext := Extends.loop post _ r1 r hi1 (by simpa using hl)
    have he1 : r1.errors = r0.errors := by
      obtain ⟨x, hx⟩ := step_errors hs
      have h2 : r1.errors = [] := by
        have aux : ∀ (ds : List Raw.Directive) (n : Nat) (r r' : Run L), Run.loop (envOf L o order) n ds r = some r' →
            r'.errors = [] → r.errors = [] := by
          intro ds
          induction ds with
          | nil => intro n r r' h h'; simp only [Run.loop, Option.some.injEq] at h; rw [h]; exact h'
          | cons d ds ih =>
            intro n r r' h h'
            simp only [Run.loop] at h
            cases hs : r.step (envOf L o order) n d with
            | none => simp [hs] at h
            | some r1 =>
              simp only [hs] at h
              obtain ⟨y, hy⟩ := step_errors hs
              have := ih _ _ _ h h'
              rw [hy] at this
              exact (List.append_eq_nil_iff.1 this).1
        exact aux _ _ _ _ hl he
      rw [h2] at hx
      rw [h2, (List.append_eq_nil_iff.1 hx.symm).1]
    have hm := C17_method L hL order o pre r0 r1 hl0 raw t hv hl1
    cases hb : L.book raw.date t.postings o.tolerance r0.st.inventory (methodAt L o.bookingMethod pre) with
    | error x =>
      rw [hb] at hm
      cases x <;> simp [he1] at hm
    | ok res =>
      rw [hb] at hm
      obtain ⟨d, ps, hbk, himg, hdv⟩ := hm he1
      have hget : r1.booked[r0.booked.length]? = some d := by rw [hbk]; simp
      have hidx : d.idx = pre.length := by
        rcases Run.step_some hs with ⟨st', x, hd, rfl⟩ | ⟨st', v, v2, bk, errs, hd, hbe, rfl⟩
        · simp at he1
        · rcases State.directive_ok hd with ⟨t', hv', ht, rfl, rfl⟩ | ⟨b', hv', -⟩ | ⟨op, hv', -⟩ |
            ⟨cl, hv', -⟩ | ⟨p', v', hv', -⟩ | ⟨hpl, -⟩
          · simp only [Option.map_none, Option.toList_none, List.append_nil, List.append_cancel_left_eq, List.cons.injEq,
              and_true] at hbk
            rw [← hbk]; simp [mkBooked]
          · rw [hv] at hv'; cases hv'
          · rw [hv] at hv'; cases hv'
          · rw [hv] at hv'; cases hv'
          · rw [hv] at hv'; cases hv'
          · rw [hv] at hpl; simp [plainVariant] at hpl
      have hfin : r.booked[r0.booked.length]? = some d := by
        rcases hext.booked _ d hget with h1 | ⟨a, j, e, t2, src, cur, m, hj, h2, -⟩
        · exact h1
        · exfalso
          obtain ⟨dp, p, d2, t3, k1, k2, k3, k4, k5, k6, k7, k8⟩ := hi1.padAt h2
          rw [← hj, hget] at k5
          cases k5
          have hlt : j < r0.booked.length := by omega
          rw [hbk, List.getElem?_append_left hlt] at k1
          have := (StInv.loop hl0).idxB dp (List.mem_of_getElem? k1)
          omega
      refine ⟨d, List.mem_of_getElem? hfin, _, res, _, hidx, hdv, hb, himg, ?_⟩
      have key : ∀ (n : Nat) (ps : List Raw.PostingSpec) (ips : List Interpolated) (qs : List Booked.Posting),
          PostingsImage n ps ips qs → (∀ ip ∈ ips, ip ∈ res.interpolated) →
          (∀ q ∈ qs, ∃ k, q.idx = some (n + k)) ∧
          ∀ (i : Nat) ip, ips[i]? = some ip →
            ((qs.filter fun q => q.idx = some (n + i)).map fun q => q.units.val).sum = ip.units.val := by
        intro n ps ips qs himg
        induction himg with
        | nil => simp
        | @cons n p ip g ps ips qs hg _ ih =>
          intro hmem
          obtain ⟨ih1, ih2⟩ := ih fun x hx => hmem x (List.mem_cons_of_mem _ hx)
          refine ⟨?_, ?_⟩
          · intro q hq
            rcases List.mem_append.1 hq with hq | hq
            · exact ⟨0, (hg.same q hq).1⟩
            · obtain ⟨k, hk⟩ := ih1 q hq
              exact ⟨k + 1, by rw [hk]; congr 1; omega⟩
          · intro i ip' hip
            rw [List.filter_append, List.map_append, List.sum_append]
            cases i with
            | zero =>
              simp only [List.getElem?_cons_zero, Option.some.injEq] at hip
              subst hip
              have h1 : g.filter (fun q => q.idx = some (n + 0)) = g := by
                apply List.filter_eq_self.2
                intro q hq
                simpa using (hg.same q hq).1
              have h2 : qs.filter (fun q => q.idx = some (n + 0)) = [] := by
                apply List.filter_eq_nil_iff.2
                intro q hq
                obtain ⟨k, hk⟩ := ih1 q hq
                simp [hk]
                omega
              rw [h1, h2]
              cases hc : ip.cost with
              | none =>
                obtain ⟨q, rfl, hu, -⟩ := hg.plain hc
                simp [hu]
              | some ls =>
                have h3 := hL.book_lots _ _ _ _ _ _ hb ip (hmem ip (by simp)) ls hc
                have h4 := hg.lots ls hc
                have h5 : g.map (fun q => q.units) = ls.map (fun l => l.units) := by
                  have := congrArg (List.map Prod.fst) h4
                  rw [List.map_map, List.map_map] at this
                  exact this
                have h6 : g.map (fun q => q.units.val) = ls.map (fun l => l.units.val) := by
                  have := congrArg (List.map Dec.val) h5
                  rw [List.map_map, List.map_map] at this
                  exact this
                rw [h6, h3]; simp
            | succ i =>
              simp only [List.getElem?_cons_succ] at hip
              have h1 : g.filter (fun q => q.idx = some (n + (i + 1))) = [] := by
                apply List.filter_eq_nil_iff.2
                intro q hq
                simp [(hg.same q hq).1]
              have h2 := ih2 i ip' hip
              rw [h1, List.map_nil, List.sum_nil, zero_add, ← h2]
              congr 2
              apply List.filter_congr
              intro q _
              have : n + (i + 1) = n + 1 + i := by omega
              rw [this]
      have := (key 0 _ _ _ himg (fun _ h => h)).2
      simpa using this

/-- The full statement is false: the booked postings of a posting at cost have no price although the input has one. -/
theorem C19_price_dropped : ∃ d ∈ Ex.out, ∃ t', d.idx = 8 ∧ d.variant = .transaction t' ∧
    (∃ t p, Ex.sale.variant = .transaction t ∧ t.postings[0]? = some p ∧ p.priceSpec ≠ none) ∧
    Ex.ledger[8]? = some Ex.sale ∧ ∀ q ∈ t'.postings, q.idx = some 0 → q.price = none := by
  refine ⟨Ex.out[9]'(by decide +kernel), List.getElem_mem _, ?_⟩
  refine ⟨match (Ex.out[9]'(by decide +kernel)).variant with | .transaction t => t | _ => ⟨[], none, none, []⟩, ?_⟩
  refine ⟨by decide +kernel, by decide +kernel, ⟨_, _, rfl, rfl, by decide +kernel⟩, by decide +kernel, by decide +kernel⟩

/-- A case: the first posting of `Ex.sale` becomes two postings, of one and two units. -/
example : (Ex.out.flatMap postingsOf).filterMap (fun q => if q.idx = some 0 ∧ q.cur = Ex.usd then some q.units else none) =
    [⟨1, 0⟩, ⟨2, 0⟩] := by decide +kernel

end Limabean
