/-
Booked directives have dates which exist, and metadata with each key once, if the input has.
-/
import Verif.Proofs.Image
import Verif.Spec.ClientData
import Verif.Spec.Attached

namespace Limabean

open Spec

variable {L : BookLib}

/-- What booking keeps about a booked posting. -/
def PostingDatesOk (p : Booked.Posting) : Prop := MetadataOk p.metadata ∧ ∀ c ∈ p.cost, CalendarDate c.date

/-- The same for the postings of a booked variant. -/
def BookedVariantDatesOk : Booked.Variant → Prop
  | .transaction t => ∀ p ∈ t.postings, PostingDatesOk p
  | .custom c => ∀ v ∈ c.values, ∀ x, v = .date x → CalendarDate x
  | _ => True

theorem bookedDatesOk_iff (b : Booked.Directive) :
    BookedDatesOk b ↔ CalendarDate b.date ∧ MetadataOk b.metadata ∧ BookedVariantDatesOk b.variant := by
  unfold BookedDatesOk BookedVariantDatesOk PostingDatesOk
  cases b.variant <;> rfl

theorem metadataOk_none : MetadataOk none := by intro l h; cases h

theorem bookedPostings_dates {l : List (Interpolated × Raw.PostingSpec)} (n : Nat)
    (h : ∀ x ∈ l, MetadataOk x.2.metadata ∧ ∀ lots ∈ x.1.cost, ∀ y ∈ lots, CalendarDate y.date) :
    ∀ p ∈ bookedPostings n l, PostingDatesOk p := by
  induction l generalizing n with
  | nil => intro p hp; cases hp
  | cons x l ih =>
    obtain ⟨ip, q⟩ := x
    intro p hp
    rcases List.mem_append.1 hp with hp | hp
    · have hx := h (ip, q) (by simp)
      unfold bookedPostingsOf at hp
      cases hc : ip.cost with
      | none =>
        simp only [hc, List.mem_singleton] at hp
        subst hp
        exact ⟨hx.1, by intro c h; cases h⟩
      | some lots =>
        simp only [hc, List.mem_map] at hp
        obtain ⟨y, hy, rfl⟩ := hp
        refine ⟨hx.1, ?_⟩
        intro c h
        cases h
        exact hx.2 lots hc y hy
    · exact ih (n + 1) (fun x hx => h x (by simp [hx])) p hp

theorem plainVariant_dates {raw : Raw.Directive} {v : Booked.Variant} (h : plainVariant raw.variant = some v) (hd : DatesOk raw) :
    BookedVariantDatesOk v := by
  have := hd.2.2
  cases hv : raw.variant <;> simp [hv, plainVariant] at h <;> subst h <;> first | trivial | skip
  rw [hv] at this
  exact this

theorem mkBooked_dates {n : Nat} {raw : Raw.Directive} {v : Booked.Variant} (hd : DatesOk raw) (hv : BookedVariantDatesOk v) :
    BookedDatesOk (mkBooked n raw v) := (bookedDatesOk_iff _).2 ⟨hd.1, hd.2.1, hv⟩

/-- An accepted step keeps the dates in order. -/
theorem dates_step (hL : DatesExist L) {env : Env L} {n : Nat} {raw : Raw.Directive} {r : Run L} {st' : State L}
    {v : Booked.Variant} {v2 : Option Booked.Variant} {bk : List Booked.Directive}
    (hd : r.st.directive env raw { directive := n } r.booked = .ok st' (v, v2, bk)) (hr : DatesOk raw)
    (h : ∀ b ∈ r.booked, BookedDatesOk b) :
    ∀ b ∈ bk ++ [mkBooked n raw v] ++ (v2.map (mkBooked n raw)).toList, BookedDatesOk b := by
  have add : ∀ {bk : List Booked.Directive} {v : Booked.Variant} {v2 : Option Booked.Variant}, (∀ b ∈ bk, BookedDatesOk b) →
      BookedVariantDatesOk v → (∀ w ∈ v2, BookedVariantDatesOk w) →
      ∀ b ∈ bk ++ [mkBooked n raw v] ++ (v2.map (mkBooked n raw)).toList, BookedDatesOk b := by
    intro bk v v2 h1 h2 h3 b hb
    simp only [List.mem_append, List.mem_singleton, Option.mem_toList, Option.map_eq_some_iff] at hb
    rcases hb with (hb | rfl) | ⟨w, hw, rfl⟩
    · exact h1 b hb
    · exact mkBooked_dates hr h2
    · exact mkBooked_dates hr (h3 w hw)
  rcases State.directive_ok hd with ⟨t, hv, ht, rfl, rfl⟩ | ⟨b, hv, hb, rfl⟩ | ⟨o, hv, ho, rfl, rfl⟩ |
    ⟨cl, hv, hc, rfl, rfl⟩ | ⟨p, v', hv, hp, rfl, rfl⟩ | ⟨hpl, rfl, rfl, rfl⟩
  · obtain ⟨q, hb, -, -, rfl⟩ := State.transaction_ok ht
    have hr' := hr.2.2
    rw [hv] at hr'
    refine add h ?_ (by intro w h; cases h)
    refine bookedPostings_dates 0 fun x hx => ?_
    obtain ⟨ip, p⟩ := x
    obtain ⟨h1, h2⟩ := List.of_mem_zip hx
    exact ⟨(hr' p h2).1, hL _ _ _ _ _ _ hr.1 (fun p hp => (hr' p hp).2) hb ip h1⟩
  · have hbk : (∀ b ∈ bk, BookedDatesOk b) ∧ ∃ y : Booked.Balance, v = .balance y := by
      obtain ⟨a, -, -, -, hcase⟩ := State.balance_ok hb
      rcases hcase with ⟨-, -, rfl, rfl⟩ | ⟨m, -, -, -, rfl, rfl⟩ | ⟨m, i, e0, -, -, hf⟩
      · exact ⟨h, _, rfl⟩
      · exact ⟨h, _, rfl⟩
      · obtain ⟨d, p, d2, t, src, h1, h2, h3, h4, rfl, -, -, rfl⟩ := State.fillPad_ok hf
        refine ⟨fun x hx => ?_, _, rfl⟩
        rcases List.mem_or_eq_of_mem_set hx with hx | rfl
        · exact h x hx
        · have := (bookedDatesOk_iff d2).1 (h d2 (List.mem_of_getElem? h3))
          refine (bookedDatesOk_iff _).2 ⟨this.1, this.2.1, ?_⟩
          intro p hp
          simp only [calculateBalancePadPostings, List.mem_cons, List.not_mem_nil, or_false] at hp
          rcases hp with rfl | rfl <;> exact ⟨metadataOk_none, by intro c h; cases h⟩
    obtain ⟨hbk, y, rfl⟩ := hbk
    exact add hbk trivial (by intro w h; cases h)
  · obtain ⟨-, -, rfl, -⟩ := State.opn_ok ho
    exact add h trivial (by intro w h; cases h)
  · obtain ⟨-, -, rfl, -⟩ := State.close_ok hc
    exact add h trivial (by intro w h; cases h)
  · obtain ⟨a, -, -, -, -, rfl, rfl⟩ := State.pad_ok hp
    refine add h trivial ?_
    intro w hw
    cases hw
    intro p hp
    cases hp
  · exact add h (plainVariant_dates hpl hr) (by intro w h; cases h)

/-- The dates of a booked ledger exist, if those of the ledger do. -/
theorem book_dates (hL : DatesExist L) {order : AMap Str (Account L) → AMap Str (Account L)} {o : BookOptions} {ds : List Raw.Directive}
    {out : List Booked.Directive} {w : List IndexedReport} (hd : ∀ d ∈ ds, DatesOk d) (h : book L order o ds = .success out w) :
    ∀ b ∈ out, BookedDatesOk b := by
  obtain ⟨r, hl, he, -, rfl, -⟩ := collect_success h
  refine Run.loop_induction _ (fun pre r => (∀ d ∈ pre, DatesOk d) → r.errors = [] → ∀ b ∈ r.booked, BookedDatesOk b) ?_ ?_ hl hd he
  · intro _ _ b hb
    cases hb
  · intro pre raw r r' ih hs hp he
    obtain ⟨h0, st', v, v2, bk, hd, -, rfl⟩ := errors_nil_of_step hs he
    exact dates_step hL hd (hp raw (by simp)) (ih (fun d h => hp d (by simp [h])) h0)

end Limabean
