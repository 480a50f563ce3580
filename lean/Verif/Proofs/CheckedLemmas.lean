/-
What plugins make satisfies the specification.
-/
import Verif.Clj.Plugins
import Verif.Clj.Spans
import Verif.Clj.Valid
import Verif.Props.C42
import Mathlib.Logic.Function.Basic

namespace Limabean
namespace Clj

/-- A directive which carries an error or satisfies the specification. -/
def Checked (valid : Data → Bool) (d : Data) : Prop := (d.get (str% "err")).truthy = true ∨ valid d = true

/-- What holds while plugins run: `A` are the identities of the directives met so far, `n₀` is the first identity for new objects. -/
structure Running (hash : Nat → Nat) (valid : Data → Bool) (n₀ : Nat) (A : List Nat) (w : World) : Prop where
  next : n₀ ≤ w.next
  known : ∀ h ∈ w.known, ∃ t, h = hash t ∧ (t ∈ A ∨ (n₀ ≤ t ∧ t < w.next))
  received : ∀ n, ∀ o ∈ w.received n, Checked valid o.data
  out : ∀ o ∈ w.out, Checked valid o.data

variable {hash : Nat → Nat} {valid : Data → Bool} {n₀ : Nat} {A : List Nat}

theorem Running.tagged (hinj : Function.Injective hash) (hA : ∀ t ∈ A, t < n₀) {tag : Data → Option Data} {got : List Obj}
    (hg : ∀ o ∈ got, Checked valid o.data) {w w₁ w₂ : World} {x : Out} {o₁ o₂ : Obj} (hw : Running hash valid n₀ A w)
    (h1 : outObj got w x = some (w₁, o₁)) (h2 : tagUnseen hash valid tag w₁ o₁ = some (w₂, o₂)) :
    Running hash valid n₀ A w₂ ∧ Checked valid o₂.data := by
  have main : Running hash valid n₀ A w₁ ∧ (Checked valid o₁.data ∨ w₁.known.contains (hash o₁.tok) = false) := by
    cases x with
    | old i =>
      simp only [outObj, Option.map_eq_some_iff] at h1
      obtain ⟨o, ho, e⟩ := h1
      cases e
      exact ⟨hw, .inl (hg _ (List.mem_of_getElem? ho))⟩
    | throws m => cases h1
    | new d =>
      simp only [outObj, Option.some.injEq, Prod.mk.injEq] at h1
      obtain ⟨rfl, rfl⟩ := h1
      refine ⟨⟨Nat.le_succ_of_le hw.next, fun h hh => ?_, hw.received, hw.out⟩, .inr ?_⟩
      · obtain ⟨t, e, ht⟩ := hw.known h hh
        exact ⟨t, e, ht.imp id fun ht => ⟨ht.1, Nat.lt_succ_of_lt ht.2⟩⟩
      · rw [Bool.eq_false_iff]
        intro hc
        obtain ⟨t, e, ht⟩ := hw.known _ (List.contains_iff_mem.1 hc)
        have e : w.next = t := hinj e
        have hn := hw.next
        rcases ht with ht | ht
        · have := hA t ht
          omega
        · omega
  obtain ⟨hw₁, ho₁⟩ := main
  unfold tagUnseen at h2
  split at h2
  · rename_i hc
    cases h2
    refine ⟨hw₁, ?_⟩
    rw [Bool.or_eq_true] at hc
    rcases hc with hc | hc
    · exact .inl hc
    · rcases ho₁ with h | h
      · exact h
      · rw [h] at hc
        cases hc
  · split at h2
    · cases h2
    · rename_i d _
      split at h2
      · rename_i hv
        cases h2
        refine ⟨⟨Nat.le_succ_of_le hw₁.next, fun h hh => ?_, hw₁.received, hw₁.out⟩, .inr hv⟩
        rcases List.mem_cons.1 hh with rfl | hh
        · exact ⟨w₁.next, rfl, .inr ⟨hw₁.next, Nat.lt_succ_self _⟩⟩
        · obtain ⟨t, e, ht⟩ := hw₁.known h hh
          exact ⟨t, e, ht.imp id fun ht => ⟨ht.1, Nat.lt_succ_of_lt ht.2⟩⟩
      · cases h2

theorem Running.feed (hinj : Function.Injective hash) (hA : ∀ t ∈ A, t < n₀) {tag : Data → Option Data} {got : List Obj}
    (hg : ∀ o ∈ got, Checked valid o.data) {sink : World → Obj → Option World}
    (hs : ∀ w o w', Running hash valid n₀ A w → Checked valid o.data → sink w o = some w' → Running hash valid n₀ A w') {xs : List Out}
    {w w' : World} (hw : Running hash valid n₀ A w) (h : Clj.feed hash valid tag got sink xs w = some w') : Running hash valid n₀ A w' := by
  induction xs generalizing w with
  | nil => cases h; exact hw
  | cons x xs ih =>
    simp only [Clj.feed, Option.bind_eq_bind, Option.bind_eq_some_iff] at h
    obtain ⟨⟨w₁, o₁⟩, h1, ⟨w₂, o₂⟩, h2, w₃, h3, h⟩ := h
    obtain ⟨g1, g2⟩ := hw.tagged hinj hA hg h1 h2
    exact ih (hs _ _ _ g1 g2 h3) h

theorem Running.push (hinj : Function.Injective hash) (hA : ∀ t ∈ A, t < n₀) {phase : Option Str} {ps : List Plugin} {n : Nat}
    {w w' : World} {o : Obj} (hw : Running hash valid n₀ A w) (ho : Checked valid o.data) (h : Clj.push hash valid phase n ps w o = some w') :
    Running hash valid n₀ A w' := by
  induction ps generalizing n w w' o with
  | nil =>
    cases h
    refine ⟨hw.next, hw.known, hw.received, fun x hx => ?_⟩
    rcases List.mem_append.1 hx with hx | hx
    · exact hw.out x hx
    · rw [List.mem_singleton.1 hx]
      exact ho
  | cons p ps ih =>
    have hr : Running hash valid n₀ A (w.receive n o) := by
      refine ⟨hw.next, hw.known, fun i x hx => ?_, hw.out⟩
      unfold World.receive at hx
      dsimp only at hx
      by_cases e : i = n
      · subst e
        rw [Function.update_self] at hx
        rcases List.mem_append.1 hx with hx | hx
        · exact hw.received _ x hx
        · rw [List.mem_singleton.1 hx]
          exact ho
      · rw [Function.update_of_ne e] at hx
        exact hw.received _ x hx
    exact hr.feed hinj hA (hr.received n) (fun w o w' h1 h2 h3 => ih h1 h2 h3) h

theorem Running.complete (hinj : Function.Injective hash) (hA : ∀ t ∈ A, t < n₀) {phase : Option Str} {ps : List Plugin} {n : Nat}
    {w w' : World} (hw : Running hash valid n₀ A w) (h : Clj.complete hash valid phase n ps w = some w') : Running hash valid n₀ A w' := by
  induction ps generalizing n w with
  | nil => cases h; exact hw
  | cons p ps ih =>
    simp only [Clj.complete, Option.bind_eq_bind, Option.bind_eq_some_iff] at h
    obtain ⟨w₁, h1, h⟩ := h
    exact ih (hw.feed hinj hA (hw.received n) (fun w o w' g1 g2 g3 => g1.push hinj hA g2 g3) h1) h

theorem Running.pushAll (hinj : Function.Injective hash) {phase : Option Str} {ps : List Plugin} {ds : List Obj}
    (hds : ∀ o ∈ ds, o.tok < n₀) (hn : (ds.map Obj.tok).Nodup) (hA : ∀ t ∈ A, t < n₀) (hd : ∀ o ∈ ds, o.tok ∉ A) {w w' : World}
    (hw : Running hash valid n₀ A w) (h : Clj.pushAll hash valid phase ps ds w = some w') :
    ∃ A', (∀ t ∈ A', t < n₀) ∧ Running hash valid n₀ A' w' := by
  induction ds generalizing A w with
  | nil => cases h; exact ⟨A, hA, hw⟩
  | cons o ds ih =>
    simp only [Clj.pushAll, Option.bind_eq_bind, Option.bind_eq_some_iff] at h
    obtain ⟨w₁, h1, w₂, h2, h⟩ := h
    simp only [List.map_cons, List.nodup_cons] at hn
    have hA' : ∀ t ∈ o.tok :: A, t < n₀ := by
      intro t ht
      rcases List.mem_cons.1 ht with rfl | ht
      · exact hds o (by simp)
      · exact hA t ht
    have main : Running hash valid n₀ (o.tok :: A) w₁ ∧ Checked valid o.data := by
      unfold meetUnseen at h1
      have hw' : Running hash valid n₀ (o.tok :: A) w :=
        ⟨hw.next, fun h hh => (hw.known h hh).imp fun t ht => ⟨ht.1, ht.2.imp (List.mem_cons_of_mem _) id⟩, hw.received, hw.out⟩
      split at h1
      · rename_i hc
        cases h1
        refine ⟨hw', ?_⟩
        rw [Bool.or_eq_true] at hc
        rcases hc with hc | hc
        · exact .inl hc
        · exfalso
          obtain ⟨t, e, ht⟩ := hw.known _ (List.contains_iff_mem.1 hc)
          have e := hinj e
          have := hds o (by simp)
          rcases ht with ht | ht
          · exact hd o (by simp) (e ▸ ht)
          · omega
      · split at h1
        · rename_i hv
          cases h1
          refine ⟨⟨hw'.next, fun h hh => ?_, hw'.received, hw'.out⟩, .inr hv⟩
          rcases List.mem_cons.1 hh with rfl | hh
          · exact ⟨o.tok, rfl, .inl (by simp)⟩
          · exact hw'.known h hh
        · cases h1
    refine ih (A := o.tok :: A) (fun x hx => hds x (by simp [hx])) hn.2 hA' (fun x hx hm => ?_) (main.1.push hinj hA' main.2 h2) h
    rcases List.mem_cons.1 hm with e | hm
    · exact hn.1 (e ▸ List.mem_map_of_mem hx)
    · exact hd x (by simp [hx]) hm

/-- After running plugins each directive carries an error or satisfies the specification. -/
theorem runPlugins_checked (hinj : Function.Injective hash) {phase : Option Str} {ps : List Plugin} {next : Nat} {ds out : List Obj}
    (hd : ∀ o ∈ ds, o.tok < next) (hn : (ds.map Obj.tok).Nodup) (h : runPlugins hash valid phase ps next ds = some out) :
    ∀ o ∈ out, Checked valid o.data := by
  simp only [runPlugins, Option.bind_eq_bind, Option.bind_eq_some_iff] at h
  obtain ⟨w₁, h1, w₂, h2, h⟩ := h
  cases h
  have h0 : Running hash valid next [] { next := next, known := [], received := fun _ => [], out := [] } :=
    ⟨Nat.le_refl _, fun _ h => (by cases h), fun _ _ h => (by cases h), fun _ h => (by cases h)⟩
  obtain ⟨A, hA, hw⟩ := h0.pushAll hinj hd hn (fun _ h => (by cases h)) (fun _ _ h => (by cases h)) h1
  exact (hw.complete hinj hA h2).out

/-! ### Synthetic spans do not matter to the specification -/

theorem find_assoc {d : Data} (h : Spec.IsMap d) (k k' : Str) (v : Data) :
    (d.assoc k v).find k' = if k = k' then some v else d.find k' := by
  cases d <;> try cases h
  simp only [Data.assoc, Data.find, AMap.get_set]

theorem get_find (d : Data) (k : Str) : d.get k = (d.find k).getD .nil := by
  cases d <;> rfl

theorem has_find (d : Data) (k : Str) : d.has k = (d.find k).isSome := by
  cases d <;> rfl

theorem posting_assoc {raw : Bool} {p : Data} (v : Data) (h : (if raw then isRawPosting else isBookedPosting) p = true) :
    (if raw then isRawPosting else isBookedPosting) (p.assoc (str% "span-p") v) = true := by
  cases p with
  | map l =>
    have hf : ∀ k, k ≠ str% "span-p" → ((Data.map l).assoc (str% "span-p") v).find k = (Data.map l).find k := by
      intro k hk
      rw [find_assoc (d := .map l) trivial, if_neg (Ne.symm hk)]
    have hr : ∀ k q, k ≠ str% "span-p" → reqUn ((Data.map l).assoc (str% "span-p") v) k q = reqUn (.map l) k q := by
      intro k q hk
      simp only [reqUn, hf k hk]
    have ho : ∀ k q, k ≠ str% "span-p" → optUn ((Data.map l).assoc (str% "span-p") v) k q = optUn (.map l) k q := by
      intro k q hk
      simp only [optUn, hf k hk]
    have hm : isMap ((Data.map l).assoc (str% "span-p") v) = true := rfl
    cases raw
    · simp only [Bool.false_eq_true, if_false, isBookedPosting, attachedOk] at h ⊢
      rw [hr _ _ (by decide), hr _ _ (by decide), hr _ _ (by decide), ho _ _ (by decide), ho _ _ (by decide), ho _ _ (by decide),
        ho _ _ (by decide), ho _ _ (by decide), ho _ _ (by decide)]
      exact h
    · simp only [if_true, isRawPosting, attachedOk] at h ⊢
      rw [hm, ho _ _ (by decide), ho _ _ (by decide), ho _ _ (by decide), ho _ _ (by decide), ho _ _ (by decide), ho _ _ (by decide),
        ho _ _ (by decide), ho _ _ (by decide), ho _ _ (by decide)]
      have hm' : isMap (.map l) = true := rfl
      rw [hm'] at h
      exact h
  | _ => cases raw <;> simp [isRawPosting, isBookedPosting, isMap, reqUn, Data.find] at h

/-- The specification only looks at these entries of a directive. -/
theorem validDct_congr {raw : Bool} {d r : Data} (hf : ∀ k, k ≠ str% "span-p" → k ≠ str% "postings" → r.find k = d.find k)
    (hp : optUn d (str% "postings") (vectorOf (if raw then isRawPosting else isBookedPosting)) = true →
      optUn r (str% "postings") (vectorOf (if raw then isRawPosting else isBookedPosting)) = true)
    (h : validDct raw d = true) : validDct raw r = true := by
  have hr : ∀ k q, k ≠ str% "span-p" → k ≠ str% "postings" → reqUn r k q = reqUn d k q := by
    intro k q h1 h2
    simp only [reqUn, hf k h1 h2]
  have ho : ∀ k q, k ≠ str% "span-p" → k ≠ str% "postings" → optUn r k q = optUn d k q := by
    intro k q h1 h2
    simp only [optUn, hf k h1 h2]
  have hg : ∀ k, k ≠ str% "span-p" → k ≠ str% "postings" → r.get k = d.get k := by
    intro k h1 h2
    rw [get_find, get_find, hf k h1 h2]
  simp only [validDct, Bool.and_eq_true] at h ⊢
  obtain ⟨⟨h1, h2⟩, h3⟩ := h
  refine ⟨⟨?_, ?_⟩, ?_⟩
  · rw [hr _ _ (by decide) (by decide)]
    exact h1
  · simp only [attachedOk] at h2 ⊢
    rw [ho _ _ (by decide) (by decide), ho _ _ (by decide) (by decide), ho _ _ (by decide) (by decide)]
    exact h2
  · unfold kindOk at h3 ⊢
    rw [hg _ (by decide) (by decide)]
    split at h3
    · rename_i kind _
      by_cases c : kind = str% "txn"
      · rw [if_pos c] at h3 ⊢
        simp only [isTxn, Bool.and_eq_true] at h3 ⊢
        rw [hr _ _ (by decide) (by decide), ho (str% "payee") _ (by decide) (by decide), ho (str% "narration") _ (by decide) (by decide)]
        exact ⟨h3.1, hp h3.2⟩
      · rw [if_neg c] at h3 ⊢
        have hany : ([str% "cur", str% "curs", str% "currency"].any fun k => (r.get k).truthy) =
            ([str% "cur", str% "curs", str% "currency"].any fun k => (d.get k).truthy) := by
          simp only [List.any_cons, List.any_nil]
          rw [hg _ (by decide) (by decide), hg _ (by decide) (by decide), hg _ (by decide) (by decide)]
        have e : ∀ k q, k ∈ [str% "cur", str% "price", str% "acc", str% "units", str% "tolerance", str% "currencies", str% "booking",
            str% "source", str% "path", str% "comment", str% "type", str% "description", str% "name", str% "content", str% "values"] →
            reqUn r k q = reqUn d k q ∧ optUn r k q = optUn d k q := by
          intro k q hk
          have h1 : k ≠ str% "span-p" := by rintro rfl; revert hk; decide
          have h2 : k ≠ str% "postings" := by rintro rfl; revert hk; decide
          exact ⟨hr k q h1 h2, ho k q h1 h2⟩
        simp only [isBalance, isOpen, hany] at h3 ⊢
        rw [(e (str% "cur") _ (by decide)).1, (e (str% "price") _ (by decide)).1, (e (str% "acc") _ (by decide)).1,
          (e (str% "units") _ (by decide)).1, (e (str% "tolerance") _ (by decide)).2, (e (str% "currencies") _ (by decide)).2,
          (e (str% "booking") _ (by decide)).2, (e (str% "source") _ (by decide)).1, (e (str% "path") _ (by decide)).1,
          (e (str% "comment") _ (by decide)).1, (e (str% "type") _ (by decide)).1, (e (str% "description") _ (by decide)).1,
          (e (str% "name") _ (by decide)).1, (e (str% "content") _ (by decide)).1, (e (str% "values") _ (by decide)).1]
        exact h3
    · rw [has_find, hf _ (by decide) (by decide), ← has_find]
      exact h3
    · cases h3

theorem valid_isMap {raw : Bool} {d : Data} (h : validDct raw d = true) : Spec.IsMap d := by
  cases d <;> trivial

theorem mergeSpans_valid {raw : Bool} {d : Data} (spans : List Data) (h : validDct raw d = true) : validDct raw (mergeSpans d spans) = true := by
  have hm := valid_isMap h
  have hm' := isMap_assoc hm (str% "span-p") ((spans.head?).getD .nil)
  unfold mergeSpans
  dsimp only
  split
  · refine validDct_congr (fun k h1 _ => by rw [find_assoc hm, if_neg (Ne.symm h1)]) (fun hp => ?_) h
    simpa only [optUn, find_assoc hm, if_neg (show ¬ (str% "span-p" : Str) = str% "postings" by decide)] using hp
  · refine validDct_congr (fun k h1 h2 => by rw [find_assoc hm', if_neg (Ne.symm h2), find_assoc hm, if_neg (Ne.symm h1)]) (fun hp => ?_) h
    simp only [optUn, find_assoc hm', if_true, vectorOf, List.all_eq_true]
    intro x hx
    rw [List.zipWith_eq_zipWith_take_min] at hx
    obtain ⟨p, s, hps, rfl⟩ : ∃ p s, p ∈ (d.get (str% "postings")).elems ∧ x = p.assoc (str% "span-p") s := by
      rw [← List.zipWith_eq_zipWith_take_min] at hx
      obtain ⟨i, hi, rfl⟩ := List.mem_iff_getElem.1 hx
      rw [List.getElem_zipWith]
      exact ⟨_, _, List.getElem_mem _, rfl⟩
    refine posting_assoc s ?_
    rw [get_find] at hps
    cases hf : d.find (str% "postings") with
    | none => rw [hf] at hps; cases hps
    | some v =>
      rw [hf] at hps
      simp only [optUn, hf] at hp
      cases v <;> simp [vectorOf] at hp
      exact hp p hps

theorem mapN_valid {raw : Bool} {ds : List Data} (spans : List Data) (h : ∀ d ∈ ds, Checked (validDct raw) d) :
    ∀ r ∈ mapN ds spans, (r.get (str% "err")).truthy = false → validDct raw r = true := by
  induction ds generalizing spans with
  | nil => intro r hr; cases hr
  | cons d ds ih =>
    have ih := fun s => ih s fun x hx => h x (by simp [hx])
    intro r hr he
    unfold mapN at hr
    by_cases hz : nSpans d = 0
    · rw [if_pos hz] at hr
      rcases List.mem_cons.1 hr with rfl | hr
      · rcases h r (by simp) with hc | hc
        · rw [he] at hc
          cases hc
        · exact hc
      · exact ih _ r hr he
    · rw [if_neg hz] at hr
      rcases List.mem_cons.1 hr with rfl | hr
      · rcases h d (by simp) with hc | hc
        · exfalso
          have hm : Spec.IsMap d := by cases d <;> trivial
          have : (mergeSpans d (spans.take (nSpans d))).get (str% "err") = d.get (str% "err") := by
            unfold mergeSpans
            dsimp only
            split
            · rw [get_assoc hm, if_neg (by decide)]
            · rw [get_assoc (isMap_assoc hm _ _), if_neg (by decide), get_assoc hm, if_neg (by decide)]
          rw [this, hc] at he
          cases he
        · exact mergeSpans_valid _ hc
      · exact ih _ r hr he

theorem merge_valid {raw : Bool} {T : Texts} {txt : Data → Str} {create : List SyntheticSpan → Option (List Data)} {ds out : List Data}
    (hd : ∀ d ∈ ds, Checked (validDct raw) d) (h : mergeWithProvenance T txt create ds = some out) :
    ∀ r ∈ out, (r.get (str% "err")).truthy = false → validDct raw r = true := by
  unfold mergeWithProvenance at h
  obtain ⟨spans, -, h⟩ := Option.map_eq_some_iff.1 h
  split at h
  · subst h
    intro r hr he
    rcases hd r hr with hc | hc
    · rw [he] at hc
      cases hc
    · exact hc
  · subst h
    exact mapN_valid spans hd

end Clj
end Limabean
