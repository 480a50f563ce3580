/-
Plugins as run, object by object with known identities, succeed exactly if they do so one after the other, with a check after each.
-/
import Verif.Spec.Chain
import Verif.Proofs.PluginLemmas
import Verif.Proofs.CheckedLemmas

namespace Limabean
namespace Clj

open Spec

variable {hash : Nat → Nat} {valid : Data → Bool} {phase : Option Str}

/-- The directive carries an error or satisfies the specification. -/
def vets (valid : Data → Bool) (d : Data) : Bool := isErr d || valid d

theorem vetted_cons (d : Data) (l : List Data) : vetted valid (d :: l) = if vets valid d then (vetted valid l).map (d :: ·) else none := by
  unfold vetted
  simp only [List.all_cons, Bool.and_eq_true]
  by_cases h1 : vets valid d = true
  · have h1' : (isErr d || valid d) = true := h1
    rw [if_pos h1]
    by_cases h2 : (l.all fun d => isErr d || valid d) = true
    · rw [if_pos ⟨h1', h2⟩, if_pos h2]; rfl
    · rw [if_neg (fun h => h2 h.2), if_neg h2]; rfl
  · rw [if_neg h1, if_neg (fun h => h1 h.1)]

theorem vetted_append (a b : List Data) :
    vetted valid (a ++ b) = (vetted valid a).bind fun a' => (vetted valid b).map (a' ++ ·) := by
  induction a with
  | nil => simp [vetted]
  | cons d a ih =>
    rw [List.cons_append, vetted_cons, vetted_cons, ih]
    split
    · cases vetted valid a <;> cases vetted valid b <;> rfl
    · rfl

theorem vetted_some {l l' : List Data} (h : vetted valid l = some l') : l' = l := by
  unfold vetted at h
  split at h
  · exact (Option.some.inj h).symm
  · cases h

/-- What is still to come if the plugins from position `n` on have received `r`, and the first of them will receive `l`. -/
def later (valid : Data → Bool) (phase : Option Str) : Nat → List Plugin → (Nat → List Data) → List Data → Option (List Data)
  | _, [], _, l => some l
  | n, p :: ps, r, l =>
    (steps p (provenanceTag p.name phase) (r n) l).bind fun a =>
      (Json.all (passOn (provenanceTag p.name phase) (r n ++ l)) (p.finish (r n ++ l))).bind fun b =>
        (vetted valid (a ++ b)).bind (later valid phase (n + 1) ps r)

theorem later_congr {ps : List Plugin} {n : Nat} {r r' : Nat → List Data} (h : ∀ m, n ≤ m → r m = r' m) (l : List Data) :
    later valid phase n ps r l = later valid phase n ps r' l := by
  induction ps generalizing n l with
  | nil => rfl
  | cons p ps ih =>
    have : later valid phase (n + 1) ps r = later valid phase (n + 1) ps r' := funext fun l => ih (fun m hm => h m (by omega)) l
    simp only [later, h n (Nat.le_refl n), this]

/-- What the plugins have received, as data. -/
def got (w : World) (m : Nat) : List Data := (w.received m).map Obj.data

/-- The result so far with what is still to come. -/
def total (valid : Data → Bool) (phase : Option Str) (n : Nat) (ps : List Plugin) (w : World) (l : List Data) : Option (List Data) :=
  (later valid phase n ps (got w) l).map (w.out.map Obj.data ++ ·)

/-- `Good`, and what was received was checked. -/
structure Vetted (hash : Nat → Nat) (valid : Data → Bool) (w : World) : Prop where
  good : Good hash w
  received : ∀ n, ∀ o ∈ w.received n, vets valid o.data = true

/-- What follows a plugin does what it should. -/
def SinkEq (hash : Nat → Nat) (valid : Data → Bool) (phase : Option Str) (n : Nat) (ps : List Plugin) (sink : World → Obj → Option World) : Prop :=
  ∀ w o, Vetted hash valid w → OkObj hash w o → vets valid o.data = true →
    (∀ l, total valid phase (n + 1) ps w (o.data :: l) = (sink w o).bind fun w' => total valid phase (n + 1) ps w' l) ∧
    ∀ w', sink w o = some w' → Vetted hash valid w' ∧ Later n w w'

/-- One object passed on: it fails exactly if it cannot be tagged or does not satisfy the specification. -/
theorem emit_eq (hinj : Function.Injective hash) {tag : Data → Option Data} {gt : List Obj} {w : World} (x : Out)
    (hg : Good hash w) (hgot : ∀ o ∈ gt, OkObj hash w o) (hv : ∀ o ∈ gt, vets valid o.data = true)
    (htag : ∀ d d', tag d = some d' → isErr d' = isErr d) :
    ((passOn tag (gt.map Obj.data) x).bind fun d => if vets valid d then some d else none) =
      ((outObj gt w x).bind fun q => tagUnseen hash valid tag q.1 q.2).map fun q => q.2.data := by
  cases x with
  | old i =>
    simp only [passOn, outObj, List.getElem?_map]
    cases h : gt[i]? with
    | none => rfl
    | some o =>
      have ho := List.mem_of_getElem? h
      simp only [Option.map_some, Option.bind_some, tagUnseen_ok (hgot o ho), hv o ho, if_true]
  | throws m => rfl
  | new d =>
    have hnew : w.known.contains (hash w.next) = false := by
      rw [Bool.eq_false_iff]
      intro hc
      rw [List.contains_iff_mem] at hc
      obtain ⟨t, h1, h2⟩ := hg.known _ hc
      have := hinj h2
      omega
    simp only [passOn, outObj, Option.bind_some, tagUnseen, hnew, Bool.or_false]
    cases he : isErr d with
    | true =>
      have he' : (d.get (str% "err")).truthy = true := he
      simp only [he', if_true, Option.bind_some, vets, he, Bool.true_or, Option.map_some]
    | false =>
      have he' : (d.get (str% "err")).truthy = false := he
      simp only [he', Bool.false_eq_true, if_false]
      cases ht : tag d with
      | none => rfl
      | some d' =>
        simp only [Option.bind_some]
        by_cases hval : valid d' = true
        · simp only [vets, hval, Bool.or_true, if_true, Option.map_some]
        · simp only [hval, Bool.false_eq_true, if_false, Option.map_none, vets, Bool.or_false, htag d d' ht, he]

theorem get_tag {name : Str} (phase : Option Str) {d d' : Data} (h : provenanceTag name phase d = some d') {x : Str} (hx : x ≠ str% "provenance") :
    d'.get x = d.get x := by
  have e : ∃ v, d' = d.assoc (str% "provenance") v := by
    unfold provenanceTag at h
    simp only [Option.bind_eq_bind] at h
    cases phase with
    | none =>
      simp only [Option.bind_eq_some_iff] at h
      obtain ⟨_, -, v, -, h⟩ := h
      exact ⟨v, (Option.some.inj h).symm⟩
    | some k =>
      simp only at h
      split at h <;> (simp only [Option.bind_eq_some_iff] at h; obtain ⟨_, -, v, -, h⟩ := h; exact ⟨v, (Option.some.inj h).symm⟩)
  obtain ⟨v, rfl⟩ := e
  cases d with
  | map l =>
    simp only [Data.assoc, Data.get, AMap.get_set]
    rw [if_neg (Ne.symm hx)]
  | nil =>
    simp only [Data.assoc, Data.get, AMap.get]
    rw [if_neg (Ne.symm hx)]
    rfl
  | _ => rfl

theorem isErr_tag {name : Str} (phase : Option Str) {d d' : Data} (h : provenanceTag name phase d = some d') : isErr d' = isErr d := by
  unfold isErr
  rw [get_tag phase h (by decide)]

theorem emit_later (hinj : Function.Injective hash) {tag : Data → Option Data} {gt : List Obj} {n : Nat} {w w2 : World} {x : Out} {o2 : Obj}
    (hg : Vetted hash valid w) (hgot : ∀ o ∈ gt, OkObj hash w o) (hv : ∀ o ∈ gt, vets valid o.data = true)
    (htag : ∀ d d', tag d = some d' → isErr d' = isErr d)
    (h : ((outObj gt w x).bind fun q => tagUnseen hash valid tag q.1 q.2) = some (w2, o2)) :
    Vetted hash valid w2 ∧ Later n w w2 ∧ OkObj hash w2 o2 ∧ vets valid o2.data = true ∧ w2.out = w.out ∧ w2.received = w.received ∧
      passOn tag (gt.map Obj.data) x = some o2.data := by
  have h' := emit_eq (valid := valid) hinj x hg.good hgot hv htag
  rw [h] at h'
  obtain ⟨⟨w1, o1⟩, h1, h2⟩ := Option.bind_eq_some_iff.1 h
  obtain ⟨e1, g2, l2, ok2, e2, e3⟩ := emit_ok (n := n) hinj hg.good hgot h1 h2
  refine ⟨⟨g2, fun m o ho => hg.received m o (by rw [← e3]; exact ho)⟩, l2, ok2, ?_, e2, e3, e1⟩
  rw [e1] at h'
  simp only [Option.bind_some, Option.map_some] at h'
  by_contra hc
  rw [if_neg hc] at h'
  cases h'

theorem total_same {n : Nat} {ps : List Plugin} {w w' : World} (ho : w'.out = w.out) (hr : ∀ m, n ≤ m → w'.received m = w.received m)
    (l : List Data) : total valid phase n ps w' l = total valid phase n ps w l := by
  unfold total
  rw [ho, later_congr (r := got w') (r' := got w) fun m hm => by simp only [got, hr m hm]]

theorem feed_eq (hinj : Function.Injective hash) {tag : Data → Option Data} (htag : ∀ d d', tag d = some d' → isErr d' = isErr d)
    {gt : List Obj} {n : Nat} {ps : List Plugin} {sink : World → Obj → Option World} (hs : SinkEq hash valid phase n ps sink) (xs : List Out)
    {w : World} (hg : Vetted hash valid w) (hgot : ∀ o ∈ gt, OkObj hash w o) (hv : ∀ o ∈ gt, vets valid o.data = true) :
    (∀ l, ((Json.all (passOn tag (gt.map Obj.data)) xs).bind fun a => (vetted valid a).bind fun a => total valid phase (n + 1) ps w (a ++ l)) =
      (feed hash valid tag gt sink xs w).bind fun w' => total valid phase (n + 1) ps w' l) ∧
    ∀ w', feed hash valid tag gt sink xs w = some w' → Vetted hash valid w' ∧ Later n w w' := by
  induction xs generalizing w with
  | nil =>
    refine ⟨fun l => by simp [Json.all, vetted, feed], fun w' h => ?_⟩
    cases h
    exact ⟨hg, .refl n _⟩
  | cons x xs ih =>
    have he := emit_eq (valid := valid) hinj x hg.good hgot hv htag
    have hfeed : feed hash valid tag gt sink (x :: xs) w = ((outObj gt w x).bind fun q => tagUnseen hash valid tag q.1 q.2).bind fun q =>
        (sink q.1 q.2).bind fun w => feed hash valid tag gt sink xs w := by
      simp only [feed, Option.bind_eq_bind]
      cases outObj gt w x with
      | none => rfl
      | some q =>
        simp only [Option.bind_some]
    rw [hfeed]
    cases hx : (outObj gt w x).bind fun q => tagUnseen hash valid tag q.1 q.2 with
    | none =>
      rw [hx] at he
      refine ⟨fun l => ?_, fun w' h => (by cases h)⟩
      simp only [Option.bind_none, Json.all]
      cases hp : passOn tag (gt.map Obj.data) x with
      | none => rfl
      | some d =>
        rw [hp] at he
        simp only [Option.bind_some, Option.map_none] at he
        have hd : vets valid d = false := by
          by_contra hc
          rw [Bool.not_eq_false] at hc
          rw [if_pos hc] at he
          cases he
        cases Json.all (passOn tag (gt.map Obj.data)) xs with
        | none => rfl
        | some a => simp only [Option.bind_some, vetted_cons, hd, Bool.false_eq_true, if_false, Option.bind_none]
    | some q =>
      obtain ⟨w2, o2⟩ := q
      obtain ⟨g2, l2, ok2, v2, e2, e3, e1⟩ := emit_later (n := n) hinj hg hgot hv htag hx
      obtain ⟨s1, s2⟩ := hs w2 o2 g2 ok2 v2
      simp only [Option.bind_some]
      constructor
      · intro l
        have hw : ∀ l, total valid phase (n + 1) ps w l = total valid phase (n + 1) ps w2 l := fun l =>
          (total_same e2 (fun m _ => by rw [e3]) l).symm
        simp only [Json.all, e1]
        cases hS : sink w2 o2 with
        | none =>
          simp only [Option.bind_none]
          cases Json.all (passOn tag (gt.map Obj.data)) xs with
          | none => rfl
          | some a =>
            simp only [Option.bind_some, vetted_cons, v2, if_true]
            cases hva : vetted valid a with
            | none => rfl
            | some b =>
              simp only [Option.map_some, Option.bind_some, List.cons_append]
              rw [hw, s1, hS]
              rfl
        | some w3 =>
          obtain ⟨g3, l3⟩ := s2 w3 hS
          obtain ⟨i1, -⟩ := ih (w := w3) g3 fun o ho => (hgot o ho).later (l2.trans l3)
          simp only [Option.bind_some, ← i1 l]
          cases Json.all (passOn tag (gt.map Obj.data)) xs with
          | none => rfl
          | some a =>
            simp only [Option.bind_some, vetted_cons, v2, if_true]
            cases hva : vetted valid a with
            | none => rfl
            | some b =>
              simp only [Option.map_some, Option.bind_some, List.cons_append]
              rw [hw, s1, hS]
              rfl
      · intro w' h
        obtain ⟨w3, h3, h4⟩ := Option.bind_eq_some_iff.1 h
        obtain ⟨g3, l3⟩ := s2 w3 h3
        obtain ⟨-, i2⟩ := ih (w := w3) g3 fun o ho => (hgot o ho).later (l2.trans l3)
        obtain ⟨g4, l4⟩ := i2 w' h4
        exact ⟨g4, l2.trans (l3.trans l4)⟩

theorem push_eq (hinj : Function.Injective hash) (ps : List Plugin) (n : Nat) (w : World) (o : Obj) (hg : Vetted hash valid w)
    (ho : OkObj hash w o) (hv : vets valid o.data = true) :
    (∀ l, total valid phase n ps w (o.data :: l) = (push hash valid phase n ps w o).bind fun w' => total valid phase n ps w' l) ∧
    ∀ w', push hash valid phase n ps w o = some w' → Vetted hash valid w' ∧ w.next ≤ w'.next ∧ (∀ h ∈ w.known, h ∈ w'.known) ∧
      ∀ m, m < n → w'.received m = w.received m := by
  induction ps generalizing n w o with
  | nil =>
    refine ⟨fun l => by simp [total, later, push], fun w' h => ?_⟩
    cases h
    exact ⟨⟨⟨hg.good.known, hg.good.received⟩, hg.received⟩, Nat.le_refl _, fun _ h => h, fun _ _ => rfl⟩
  | cons p ps ih =>
    have hr : (w.receive n o).received n = w.received n ++ [o] := by simp [World.receive]
    have hne : ∀ m, m ≠ n → (w.receive n o).received m = w.received m := fun m hm => by simp [World.receive, Function.update_of_ne hm]
    have hg' : Vetted hash valid (w.receive n o) := by
      refine ⟨⟨hg.good.known, fun m a ha => ?_⟩, fun m a ha => ?_⟩
      · by_cases e : m = n
        · subst e
          rw [hr] at ha
          rcases List.mem_append.1 ha with ha | ha
          · exact hg.good.received m a ha
          · rw [List.mem_singleton.1 ha]
            exact ho
        · rw [hne m e] at ha
          exact hg.good.received m a ha
      · by_cases e : m = n
        · subst e
          rw [hr] at ha
          rcases List.mem_append.1 ha with ha | ha
          · exact hg.received m a ha
          · rw [List.mem_singleton.1 ha]
            exact hv
        · rw [hne m e] at ha
          exact hg.received m a ha
    have hsink : SinkEq hash valid phase n ps (push hash valid phase (n + 1) ps) := by
      intro w o h1 h2 h3
      obtain ⟨i1, i2⟩ := ih (n + 1) w o h1 h2 h3
      refine ⟨i1, fun w' h => ?_⟩
      obtain ⟨a1, a2, a3, a4⟩ := i2 w' h
      exact ⟨a1, a2, a3, fun m hm => a4 m (by omega)⟩
    obtain ⟨f1, f2⟩ := feed_eq (phase := phase) hinj (tag := provenanceTag p.name phase) (fun d d' h => isErr_tag phase h) hsink
      (p.step (((w.receive n o).received n).map Obj.data)) hg' (hg'.good.received n) (hg'.received n)
    have hpush : push hash valid phase n (p :: ps) w o = feed hash valid (provenanceTag p.name phase) ((w.receive n o).received n)
        (push hash valid phase (n + 1) ps) (p.step (((w.receive n o).received n).map Obj.data)) (w.receive n o) := rfl
    rw [hpush]
    have hd : ((w.receive n o).received n).map Obj.data = got w n ++ [o.data] := by simp [hr, got]
    rw [hd] at f1 f2 ⊢
    constructor
    · intro l
      have hw : ∀ l, total valid phase (n + 1) ps (w.receive n o) l = total valid phase (n + 1) ps w l := fun l =>
        total_same (n := n + 1) (w := w) (w' := w.receive n o) rfl (fun m hm => hne m (by omega)) l
      have hrest : ∀ w', feed hash valid (provenanceTag p.name phase) ((w.receive n o).received n) (push hash valid phase (n + 1) ps)
          (p.step (got w n ++ [o.data])) (w.receive n o) = some w' → got w' n = got w n ++ [o.data] := fun w' h => by
        rw [got, (f2 w' h).2.received n (Nat.le_refl n), hd]
      cases hX : (steps p (provenanceTag p.name phase) (got w n ++ [o.data]) l).bind fun a =>
          (Json.all (passOn (provenanceTag p.name phase) (got w n ++ [o.data] ++ l)) (p.finish (got w n ++ [o.data] ++ l))).bind fun b =>
            vetted valid (a ++ b) with
      | none =>
        have h1 : total valid phase n (p :: ps) w (o.data :: l) = none := by
          simp only [total, later, steps, Option.bind_eq_bind, Option.pure_def]
          cases Json.all (passOn (provenanceTag p.name phase) (got w n ++ [o.data])) (p.step (got w n ++ [o.data])) with
          | none => rfl
          | some a1 =>
            simp only [Option.bind_some]
            cases h2 : steps p (provenanceTag p.name phase) (got w n ++ [o.data]) l with
            | none => rfl
            | some a2 =>
              rw [h2, Option.bind_some] at hX
              have e : got w n ++ o.data :: l = got w n ++ [o.data] ++ l := by simp
              simp only [Option.bind_some, e]
              cases h3 : Json.all (passOn (provenanceTag p.name phase) (got w n ++ [o.data] ++ l)) (p.finish (got w n ++ [o.data] ++ l)) with
              | none => rfl
              | some b =>
                rw [h3, Option.bind_some] at hX
                simp only [Option.bind_some, List.append_assoc]
                rw [vetted_append, hX]
                cases vetted valid a1 <;> rfl
        rw [h1]
        symm
        rw [Option.bind_eq_none_iff]
        intro w' h
        have hg := hrest w' h
        simp only [total, later, hg]
        cases h2 : steps p (provenanceTag p.name phase) (got w n ++ [o.data]) l with
        | none => rfl
        | some a2 =>
          rw [h2, Option.bind_some] at hX
          simp only [Option.bind_some]
          cases h3 : Json.all (passOn (provenanceTag p.name phase) (got w n ++ [o.data] ++ l)) (p.finish (got w n ++ [o.data] ++ l)) with
          | none => rfl
          | some b =>
            rw [h3, Option.bind_some] at hX
            simp only [Option.bind_some, hX]
            rfl
      | some R =>
        obtain ⟨a2, h2, hX⟩ := Option.bind_eq_some_iff.1 hX
        obtain ⟨b, h3, hX⟩ := Option.bind_eq_some_iff.1 hX
        have hR := vetted_some hX
        have e : got w n ++ o.data :: l = got w n ++ [o.data] ++ l := by simp
        have h4 : total valid phase n (p :: ps) w (o.data :: l) =
            (Json.all (passOn (provenanceTag p.name phase) (got w n ++ [o.data])) (p.step (got w n ++ [o.data]))).bind fun a =>
              (vetted valid a).bind fun a => total valid phase (n + 1) ps (w.receive n o) (a ++ R) := by
          simp only [total, later, steps, Option.bind_eq_bind, Option.pure_def, h2, e, h3, Option.bind_some]
          cases Json.all (passOn (provenanceTag p.name phase) (got w n ++ [o.data])) (p.step (got w n ++ [o.data])) with
          | none => rfl
          | some a1 =>
            simp only [Option.bind_some, List.append_assoc]
            rw [vetted_append, hX]
            cases vetted valid a1 with
            | none => rfl
            | some a =>
              simp only [Option.map_some, Option.bind_some]
              exact (hw (a ++ R)).symm
        rw [h4, f1 R]
        cases hF : feed hash valid (provenanceTag p.name phase) ((w.receive n o).received n) (push hash valid phase (n + 1) ps)
            (p.step (got w n ++ [o.data])) (w.receive n o) with
        | none => rfl
        | some w' =>
          have hg := hrest w' hF
          simp only [Option.bind_some]
          simp only [total, later, hg, h2, h3, Option.bind_some, hX]
    · intro w' h
      obtain ⟨g1, g2⟩ := f2 w' h
      refine ⟨g1, g2.next, g2.known, fun m hm => ?_⟩
      rw [g2.received m (by omega)]
      exact hne m (by omega)

theorem complete_eq (hinj : Function.Injective hash) (ps : List Plugin) (n : Nat) (w : World) (hg : Vetted hash valid w) :
    total valid phase n ps w [] = (complete hash valid phase n ps w).map fun w' => w'.out.map Obj.data := by
  induction ps generalizing n w with
  | nil => simp [total, later, complete]
  | cons p ps ih =>
    have hsink : SinkEq hash valid phase n ps (push hash valid phase (n + 1) ps) := by
      intro w o h1 h2 h3
      obtain ⟨i1, i2⟩ := push_eq (phase := phase) hinj ps (n + 1) w o h1 h2 h3
      refine ⟨i1, fun w' h => ?_⟩
      obtain ⟨a1, a2, a3, a4⟩ := i2 w' h
      exact ⟨a1, a2, a3, fun m hm => a4 m (by omega)⟩
    obtain ⟨f1, f2⟩ := feed_eq (phase := phase) hinj (tag := provenanceTag p.name phase) (fun d d' h => isErr_tag phase h) hsink
      (p.finish ((w.received n).map Obj.data)) hg (hg.good.received n) (hg.received n)
    have h1 : total valid phase n (p :: ps) w [] =
        (Json.all (passOn (provenanceTag p.name phase) ((w.received n).map Obj.data)) (p.finish ((w.received n).map Obj.data))).bind fun a =>
          (vetted valid a).bind fun a => total valid phase (n + 1) ps w (a ++ []) := by
      simp only [total, later, steps, Option.bind_some, List.append_nil, List.nil_append, got]
      cases Json.all (passOn (provenanceTag p.name phase) ((w.received n).map Obj.data)) (p.finish ((w.received n).map Obj.data)) with
      | none => rfl
      | some b =>
        simp only [Option.bind_some]
        cases vetted valid b <;> rfl
    rw [h1, f1 []]
    simp only [complete, Option.bind_eq_bind]
    cases hF : feed hash valid (provenanceTag p.name phase) (w.received n) (push hash valid phase (n + 1) ps)
        (p.finish ((w.received n).map Obj.data)) w with
    | none => rfl
    | some w' =>
      simp only [Option.bind_some]
      exact ih (n + 1) w' (f2 w' hF).1

/-- Identities of directives not yet met are not known. -/
def Unmet (hash : Nat → Nat) (n₀ : Nat) (os : List Obj) (w : World) : Prop := n₀ ≤ w.next ∧ ∀ o ∈ os, hash o.tok ∉ w.known

theorem pushAll_eq (hinj : Function.Injective hash) (ps : List Plugin) {n₀ : Nat} {A : List Nat} (os : List Obj) (hn : (os.map Obj.tok).Nodup)
    (hd : ∀ o ∈ os, o.tok < n₀ ∧ o.tok ∉ A) {w : World} (hA₀ : ∀ t ∈ A, t < n₀) (hR : Running hash valid n₀ A w)
    (hg : Vetted hash valid w) :
    ((vetted valid (os.map Obj.data)).bind fun l => total valid phase 0 ps w l) =
      (pushAll hash valid phase ps os w).bind fun w' => (complete hash valid phase 0 ps w').map fun w => w.out.map Obj.data := by
  induction os generalizing A w with
  | nil =>
    simp only [List.map_nil, pushAll, Option.bind_some]
    rw [← complete_eq hinj ps 0 w hg]
    rfl
  | cons o os ih =>
    simp only [List.map_cons, List.nodup_cons] at hn
    have hw := hR.next
    have hunk : w.known.contains (hash o.tok) = false := by
      rw [Bool.eq_false_iff]
      intro hc
      obtain ⟨t, e, ht⟩ := hR.known _ (List.contains_iff_mem.1 hc)
      have e := hinj e
      have := hd o (by simp)
      rcases ht with ht | ht
      · exact this.2 (e ▸ ht)
      · omega
    have hd' : ∀ x ∈ os, x.tok < n₀ ∧ x.tok ∉ o.tok :: A := by
      intro x hx
      refine ⟨(hd x (by simp [hx])).1, fun hm => ?_⟩
      rcases List.mem_cons.1 hm with e | hm
      · exact hn.1 (e ▸ List.mem_map_of_mem hx)
      · exact (hd x (by simp [hx])).2 hm
    simp only [List.map_cons, vetted_cons, pushAll, Option.bind_eq_bind, meetUnseen, hunk, Bool.or_false]
    by_cases hv : vets valid o.data = true
    · obtain ⟨w1, h1, h2, h3, h4, h5, h6⟩ : ∃ w1, (if (o.data.get (str% "err")).truthy = true then some w
          else if valid o.data = true then some { w with known := hash o.tok :: w.known } else none) = some w1 ∧ Vetted hash valid w1 ∧
          OkObj hash w1 o ∧ w1.next = w.next ∧ (w1.out = w.out ∧ w1.received = w.received) ∧
          Running hash valid n₀ (o.tok :: A) w1 := by
        have hlt : o.tok < w.next := Nat.lt_of_lt_of_le (hd o (by simp)).1 hw
        have hA' : Running hash valid n₀ (o.tok :: A) w :=
          ⟨hR.next, fun h hh => (hR.known h hh).imp fun t ht => ⟨ht.1, ht.2.imp (List.mem_cons_of_mem _) id⟩, hR.received, hR.out⟩
        cases he : (o.data.get (str% "err")).truthy with
        | true =>
          refine ⟨w, by simp, hg, ⟨hlt, fun hf => ?_⟩, rfl, ⟨rfl, rfl⟩, hA'⟩
          rw [isErr, he] at hf
          cases hf
        | false =>
          have hval : valid o.data = true := by
            unfold vets isErr at hv
            rwa [he, Bool.false_or] at hv
          refine ⟨{ w with known := hash o.tok :: w.known }, by simp [hval], ⟨⟨?_, ?_⟩, hg.received⟩, ⟨hlt, fun _ => List.mem_cons_self ..⟩, rfl,
            ⟨rfl, rfl⟩, ⟨hR.next, fun h hh => ?_, hR.received, hR.out⟩⟩
          · intro x hx
            rcases List.mem_cons.1 hx with rfl | hx
            · exact ⟨_, hlt, rfl⟩
            · exact hg.good.known x hx
          · intro m a ha
            exact ⟨(hg.good.received m a ha).1, fun hf => List.mem_cons_of_mem _ ((hg.good.received m a ha).2 hf)⟩
          · rcases List.mem_cons.1 hh with rfl | hh
            · exact ⟨o.tok, rfl, .inl (by simp)⟩
            · exact hA'.known h hh
      rw [h1, if_pos hv]
      simp only [Option.bind_some]
      obtain ⟨p1, p2⟩ := push_eq (phase := phase) hinj ps 0 w1 o h2 h3 hv
      have hw' : ∀ l, total valid phase 0 ps w l = total valid phase 0 ps w1 l := fun l => (total_same h5.1 (fun m _ => by rw [h5.2]) l).symm
      cases hP : push hash valid phase 0 ps w1 o with
      | none =>
        simp only [Option.bind_none]
        cases vetted valid (os.map Obj.data) with
        | none => rfl
        | some l =>
          simp only [Option.map_some, Option.bind_some]
          rw [hw', p1, hP]
          rfl
      | some w2 =>
        obtain ⟨q1, q2, q3, -⟩ := p2 w2 hP
        have hch : Checked valid o.data := by
          unfold vets at hv
          rwa [Bool.or_eq_true] at hv
        have hA₁ : ∀ t ∈ o.tok :: A, t < n₀ := by
          intro t ht
          rcases List.mem_cons.1 ht with rfl | ht
          · exact (hd o (by simp)).1
          · exact hA₀ t ht
        simp only [Option.bind_some, ← ih (A := o.tok :: A) hn.2 hd' hA₁ (h6.push hinj hA₁ hch hP) q1]
        cases vetted valid (os.map Obj.data) with
        | none => rfl
        | some l =>
          simp only [Option.map_some, Option.bind_some]
          rw [hw', p1, hP]
          rfl
    · rw [if_neg hv]
      have h1 : (o.data.get (str% "err")).truthy = false := by
        by_contra hc
        rw [Bool.not_eq_false] at hc
        exact hv (by simp [vets, isErr, hc])
      have h2 : valid o.data = false := by
        by_contra hc
        rw [Bool.not_eq_false] at hc
        exact hv (by simp [vets, hc])
      simp [h1, h2]

theorem later_start (ps : List Plugin) (n : Nat) (l : List Data) : later valid phase n ps (fun _ => []) l = throughVetted valid phase ps l := by
  induction ps generalizing n l with
  | nil => rfl
  | cons p ps ih =>
    have : later valid phase (n + 1) ps (fun _ => []) = throughVetted valid phase ps := funext fun l => ih (n + 1) l
    simp only [later, throughVetted, through, this, List.nil_append, Option.bind_eq_bind, Option.bind_assoc, Option.pure_def, Option.bind_some]

/-- Running plugins is running them one after the other, with a check at first and after each. -/
theorem runPlugins_vetted (hinj : Function.Injective hash) (ps : List Plugin) {next : Nat} {ds : List Obj} (hd : ∀ o ∈ ds, o.tok < next)
    (hn : (ds.map Obj.tok).Nodup) :
    (runPlugins hash valid phase ps next ds).map (fun out => out.map Obj.data) =
      (vetted valid (ds.map Obj.data)).bind (throughVetted valid phase ps) := by
  have h0 : Running hash valid next [] { next := next, known := [], received := fun _ => [], out := [] } :=
    ⟨Nat.le_refl _, fun _ h => (by cases h), fun _ _ h => (by cases h), fun _ h => (by cases h)⟩
  have h := pushAll_eq (phase := phase) hinj ps ds hn (fun o ho => ⟨hd o ho, by simp⟩) (fun _ h => (by cases h)) h0
    ⟨by constructor <;> simp, fun _ _ h => (by cases h)⟩
  have e : (fun l => total valid phase 0 ps { next := next, known := [], received := fun _ => [], out := [] } l) = throughVetted valid phase ps := by
    funext l
    simp only [total, List.map_nil, List.nil_append]
    rw [← later_start ps 0 l]
    show Option.map _ (later valid phase 0 ps (fun _ => []) l) = _
    cases later valid phase 0 ps (fun _ => []) l <;> rfl
  rw [e] at h
  rw [h]
  simp only [runPlugins, Option.bind_eq_bind, Option.pure_def]
  cases pushAll hash valid phase ps ds { next := next, known := [], received := fun _ => [], out := [] } with
  | none => rfl
  | some w =>
    simp only [Option.bind_some]
    cases complete hash valid phase 0 ps w <;> rfl

end Clj
end Limabean
