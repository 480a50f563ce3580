/-
C86: who asks for a booking method which is not supported is warned of it by name.

False: of an unsupported method in the option `booking_method` nobody is warned (`C86_false_option`), and of the two warnings for an
account which is opened with one, the second has braces in place of the name (`C86_false_text`). The first names the method, and the one
which is used in its place (`C86_partial`).
-/
import Verif.Props.C82
import Verif.Props.C85

namespace Limabean

open Spec

/-- C86 for the methods with which accounts are opened: if a ledger is accepted, then there are two warnings for each directive which opens
an account with an unsupported method, and no others. The text of the first names the method and the one used in its place. Missing: the
second warning does not name it (`C86_false_text`), and an unsupported method in the options is not warned of (`C86_false_option`). -/
theorem C86_partial (L : BookLib) (hL : L.Lawful) (order : AMap Str (Account L) → AMap Str (Account L)) (hf : ∀ m, (order m).Perm m)
    (o : BookOptions) (ds : List Raw.Directive) (out : List Booked.Directive) (w : List IndexedReport) (method : Booking → Str)
    (h : book L order o ds = .success out w) :
    (∀ n d op b, ds[n]? = some d → d.variant = .opn op → op.booking = some b → L.supported b = false →
      ∃ r r', w.filter (fun r => r.idx.directive == n) = [r, r'] ∧
        r.reason.text method = str% "booking method " ++ method b ++ str% " unsupported, falling back to default " ++ method L.dflt) ∧
    ∀ r ∈ w, ∃ d op b, ds[r.idx.directive]? = some d ∧ r.idx.posting = none ∧ d.variant = .opn op ∧ op.booking = some b ∧
      L.supported b = false := by
  obtain ⟨-, -, hw⟩ := (C82_returned L hL order hf o ds out w).1 h
  subst hw
  constructor
  · intro n d op b hn hv hb hs
    have key : ∀ (l : List Raw.Directive) (k : Nat), k ≤ n → l[n - k]? = some d →
        ((l.zipIdx k).flatMap fun x => warns L x.2 x.1).filter (fun r => r.idx.directive == n) = warns L n d := by
      intro l
      induction l with
      | nil => intro k _ h; simp at h
      | cons x l ih =>
        intro k hk hx
        have hidx : ∀ (m : Nat) (y : Raw.Directive), ∀ r ∈ warns L m y, r.idx.directive = m := by
          intro m y r hr
          unfold warns at hr
          repeat' split at hr
          all_goals first
            | (simp at hr; done)
            | (simp only [List.mem_cons, List.not_mem_nil, or_false] at hr
               rcases hr with rfl | rfl <;> rfl)
        have hrest : ∀ (l : List Raw.Directive) (k : Nat), n < k →
            ((l.zipIdx k).flatMap fun x => warns L x.2 x.1).filter (fun r => r.idx.directive == n) = [] := by
          intro l k hk
          rw [List.filter_eq_nil_iff]
          intro r hr
          obtain ⟨⟨y, m⟩, hy, hr⟩ := List.mem_flatMap.1 hr
          have := hidx m y r hr
          have := List.le_snd_of_mem_zipIdx hy
          simp only [beq_iff_eq]
          simp only at *
          omega
        rw [List.zipIdx_cons, List.flatMap_cons, List.filter_append]
        by_cases e : k = n
        · subst e
          simp only [Nat.sub_self, List.getElem?_cons_zero, Option.some.injEq] at hx
          subst hx
          rw [hrest l (k + 1) (by omega), List.append_nil, List.filter_eq_self]
          intro r hr
          simpa using hidx k x r hr
        · have h1 : (warns L k x).filter (fun r => r.idx.directive == n) = [] := by
            rw [List.filter_eq_nil_iff]
            intro r hr
            have := hidx k x r hr
            simp only [beq_iff_eq]
            omega
          rw [h1, List.nil_append]
          refine ih (k + 1) (by omega) ?_
          rw [show n - k = (n - (k + 1)) + 1 by omega, List.getElem?_cons_succ] at hx
          exact hx
    refine ⟨{ idx := { directive := n }, reason := .bookingUnsupported b L.dflt },
      { idx := { directive := n }, reason := .bookingUnsupportedExplicit }, ?_, rfl⟩
    · have := key ds 0 (by omega) (by simpa using hn)
      unfold warned
      rw [this]
      unfold warns
      rw [hv]
      simp only [hb, hs, Bool.false_eq_true, if_false]
  · intro r hr
    unfold warned at hr
    obtain ⟨⟨d, n⟩, hd, hr⟩ := List.mem_flatMap.1 hr
    have hg := List.mk_mem_zipIdx_iff_getElem?.1 hd
    unfold warns at hr
    cases hv : d.variant with
    | opn op =>
      simp only [hv] at hr
      cases hb : op.booking with
      | none => simp [hb] at hr
      | some b =>
        by_cases hs : L.supported b = true
        · simp [hb, hs] at hr
        · simp only [hb, hs, Bool.false_eq_true, if_false, List.mem_cons, List.not_mem_nil, or_false] at hr
          rcases hr with rfl | rfl
          · exact ⟨d, op, b, hg, rfl, hv, hb, by simpa using hs⟩
          · exact ⟨d, op, b, hg, rfl, hv, hb, by simpa using hs⟩
    | _ => simp [hv] at hr

open Toy in
/-- C86 is false of the options: the method is not supported, and there is no warning. -/
theorem C86_false_option : lib.supported .average = false ∧
    ∃ out, book lib id { bookingMethod := some .average } [mkOpen 1 Ex.bank] = .success out [] :=
  ⟨rfl, _, rfl⟩

open Toy in
/-- C86 is false of the second warning: the account is opened with an unsupported method, and the warning does not name it. -/
theorem C86_false_text : lib.supported .average = false ∧
    ∃ out r r', book lib id {} [mkOpen 1 Ex.bank none (some .average)] = .success out [r, r'] ∧
      Ex.methodName .average <:+: r.reason.text Ex.methodName ∧ ¬ Ex.methodName .average <:+: r'.reason.text Ex.methodName :=
  ⟨rfl, _, _, _, rfl, by decide +kernel, by decide +kernel⟩

open Toy in
/-- Non-vacuity of `C86_partial`: a library which meets the contract, and an accepted ledger in which an account is opened with an unsupported
method. -/
example : lib.Lawful ∧ (∃ out w, book lib id {} [mkOpen 1 Ex.bank none (some .average)] = .success out w ∧ w.length = 2) ∧
    (Reason.bookingUnsupported .average lib.dflt).text Ex.methodName =
      str% "booking method AVERAGE unsupported, falling back to default STRICT" :=
  ⟨lib_lawful, ⟨_, _, rfl, rfl⟩, by decide +kernel⟩

end Limabean
