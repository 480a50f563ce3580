/-
C17: booking method selection.
-/
import Verif.Props.C11
import Verif.Proofs.Refine
import Verif.Props.Examples

namespace Limabean

open Spec

variable {L : BookLib}

theorem bookedPostingsOf_image (i : Nat) (ip : Interpolated) (p : Raw.PostingSpec) :
    PostingImage i p ip (bookedPostingsOf i ip p) := by
  unfold bookedPostingsOf
  cases hc : ip.cost with
  | none =>
    refine ⟨?_, ?_, ?_⟩
    · simp
    · intro _; exact ⟨_, rfl, rfl, rfl, rfl⟩
    · simp [hc]
  | some ls =>
    refine ⟨?_, ?_, ?_⟩
    · intro q hq
      simp only [List.mem_map] at hq
      obtain ⟨l, -, rfl⟩ := hq
      simp
    · simp [hc]
    · intro ls' h
      rw [hc] at h
      cases h
      simp [curPostingCostToCost, costOf]

theorem bookedPostings_image {ips : List Interpolated} {ps : List Raw.PostingSpec} (h : ips.length = ps.length) (i : Nat) :
    PostingsImage i ps ips (bookedPostings i (ips.zip ps)) := by
  induction ips generalizing ps i with
  | nil =>
    cases ps with
    | nil => exact .nil i
    | cons p ps => simp at h
  | cons ip ips ih =>
    cases ps with
    | nil => simp at h
    | cons p ps =>
      exact .cons (bookedPostingsOf_image i ip p) (ih (by simpa using h) _)

/-- C17: what becomes of a transaction is decided by the library's answer for the methods which the open directives and
the option select: an error is reported, and the postings of an accepted transaction are those the library answered. -/
theorem C17_method (L : BookLib) (hL : L.Lawful)
    (order : AMap Str (Account L) → AMap Str (Account L)) (o : BookOptions)
    (ds : List Raw.Directive) (r r' : Run L) (h : Run.loop (envOf L o order) 0 ds {} = some r) (raw : Raw.Directive)
    (t : Raw.Transaction) (hv : raw.variant = .transaction t)
    (h' : Run.loop (envOf L o order) 0 (ds ++ [raw]) {} = some r') :
    match L.book raw.date t.postings o.tolerance r.st.inventory (methodAt L o.bookingMethod ds) with
    | .error (.transaction text) => r'.errors = r.errors ++ [ElementIdx.report { directive := ds.length } (.library text)]
    | .error (.posting i text) =>
      r'.errors = r.errors ++ [ElementIdx.report { directive := ds.length } (.libraryPosting text i)]
    | .ok res => r'.errors = r.errors → ∃ d ps, r'.booked = r.booked ++ [d] ∧
        PostingsImage 0 t.postings res.interpolated ps ∧
        d.variant = .transaction { flag := t.flag, payee := t.payee, narration := t.narration, postings := ps } := by
  have hs : r.step (envOf L o order) ds.length raw = some r' := by
    obtain ⟨r1, h1, h2⟩ := Run.loop_snoc.1 h'
    rw [h] at h1
    cases h1
    simpa using h2
  have hm := methodAt_eq hL.supported_dflt (LifeInv.loop h)
  cases hb : L.book raw.date t.postings o.tolerance r.st.inventory (methodAt L o.bookingMethod ds) with
  | error x =>
    have hb' : L.book raw.date t.postings (envOf L o order).tolerance r.st.inventory
        (r.st.bookingFor (envOf L o order)) = .error x := by rw [hm]; exact hb
    cases x with
    | transaction text =>
      simp only [Run.step, State.directive, hv, State.transaction, State.book, hb', Res.plain, Option.some.injEq] at hs
      rw [← hs]
    | posting i text =>
      simp only [Run.step, State.directive, hv, State.transaction, State.book, hb', Res.plain, Option.some.injEq] at hs
      rw [← hs]
  | ok res =>
    intro he
    rcases Run.step_some hs with ⟨st', x, hd, rfl⟩ | ⟨st', v, v2, bk, errs, hd, hbe, rfl⟩
    · simp at he
    · rcases State.directive_ok hd with ⟨t', hv', ht, rfl, rfl⟩ | ⟨b', hv', -⟩ | ⟨op, hv', -⟩ |
        ⟨cl, hv', -⟩ | ⟨p', v', hv', -⟩ | ⟨hpl, -⟩
      · rw [hv] at hv'
        cases hv'
        obtain ⟨res', hb', -, -, rfl⟩ := State.transaction_ok ht
        rw [hm] at hb'
        have hb2 : L.book raw.date t.postings o.tolerance r.st.inventory (methodAt L o.bookingMethod ds) = .ok res' := hb'
        rw [hb] at hb2
        cases hb2
        refine ⟨mkBooked ds.length raw (.transaction _), _, ?_, bookedPostings_image (hL.book_length _ _ _ _ _ _ hb) 0, rfl⟩
        simp
      · rw [hv] at hv'; cases hv'
      · rw [hv] at hv'; cases hv'
      · rw [hv] at hv'; cases hv'
      · rw [hv] at hv'; cases hv'
      · rw [hv] at hpl; simp [plainVariant] at hpl

/-- C17: an unsupported method never reaches the library. -/
theorem C17_supported (L : BookLib) (hd : L.supported L.dflt = true) (option : Option Booking)
    (ds : List Raw.Directive) (acc : Str) : L.supported (methodAt L option ds acc) = true := by
  have hm : ∀ o, L.supported (method L option o) = true := by
    intro o
    unfold method
    split
    · split <;> simp [*]
    · split <;> simp [*]
    · exact hd
  unfold methodAt
  split <;> exact hm _

/-- C17: an accepted open directive adds warnings iff it names an unsupported method, and then at its own position. -/
theorem C17_warning (L : BookLib) (hd : L.supported L.dflt = true)
    (order : AMap Str (Account L) → AMap Str (Account L)) (o : BookOptions)
    (ds : List Raw.Directive) (r r' : Run L) (h : Run.loop (envOf L o order) 0 ds {} = some r) (raw : Raw.Directive)
    (op : Raw.Open) (hv : raw.variant = .opn op) (hn : life ds op.acc = .never)
    (h' : Run.loop (envOf L o order) 0 (ds ++ [raw]) {} = some r') :
    ∃ ws, r'.st.warnings = r.st.warnings ++ ws ∧ (ws ≠ [] ↔ ∃ m, op.booking = some m ∧ L.supported m = false) ∧
      ∀ w ∈ ws, w.idx = { directive := ds.length } := by
  have hs : r.step (envOf L o order) ds.length raw = some r' := by
    obtain ⟨r1, h1, h2⟩ := Run.loop_snoc.1 h'
    rw [h] at h1
    cases h1
    simpa using h2
  obtain ⟨h1, h2, -⟩ := (LifeInv.loop h).never _ hn
  have hdef : L.supported (defaultBooking L o) = true := by
    unfold defaultBooking
    cases o.bookingMethod with
    | none => exact hd
    | some b => by_cases hb : L.supported b = true <;> simp [hb, hd]
  simp only [Run.step, State.directive, hv, State.opn, h1, h2, Res.plain, balanceErrors, Option.some.injEq] at hs
  rw [← hs]
  refine ⟨_, List.append_assoc _ _ _, ?_, ?_⟩
  · cases hb : op.booking with
    | none => simp [envOf, hdef]
    | some m => by_cases hm : L.supported m = true <;> simp [hm]
  · intro w hw
    cases hb : op.booking with
    | none => simp [hb, envOf, hdef] at hw
    | some m =>
      by_cases hm : L.supported m = true
      · simp [hb, hm] at hw
      · simp [hb, hm] at hw
        rcases hw with rfl | rfl <;> rfl

/-- A case: an open with an unsupported method gives warnings, and the method used is the default; one with a supported
method gives none, and it is used although the option names another. -/
example : (match Toy.run [Toy.mkOpen 1 Ex.bank none (some .average), Toy.mkOpen 1 Ex.food none (some .fifo)] with
  | .success _ ws => ws.map fun w => w.idx.directive | _ => []) = [0, 0] := by decide +kernel
example : methodAt Toy.lib (some .lifo) [Toy.mkOpen 1 Ex.bank none (some .average), Toy.mkOpen 1 Ex.food none (some .fifo),
      Toy.mkOpen 1 Ex.equity] Ex.bank = .strict ∧
    methodAt Toy.lib (some .lifo) [Toy.mkOpen 1 Ex.bank none (some .average), Toy.mkOpen 1 Ex.food none (some .fifo),
      Toy.mkOpen 1 Ex.equity] Ex.food = .fifo ∧
    methodAt Toy.lib (some .lifo) [Toy.mkOpen 1 Ex.bank none (some .average), Toy.mkOpen 1 Ex.food none (some .fifo),
      Toy.mkOpen 1 Ex.equity] Ex.equity = .lifo := by decide +kernel

end Limabean
