/-
Plugins as run, object by object with known identities, do what they do one after the other.
-/
import Verif.Spec.Plugins

namespace Limabean
namespace Clj

open Spec

variable {hash : Nat → Nat} {valid : Data → Bool} {phase : Option Str}

/-- The object exists, and is known unless it carries an error. -/
def OkObj (hash : Nat → Nat) (w : World) (o : Obj) : Prop :=
  o.tok < w.next ∧ (isErr o.data = false → hash o.tok ∈ w.known)

/-- Only existing objects are known; the objects received are known. -/
structure Good (hash : Nat → Nat) (w : World) : Prop where
  known : ∀ h ∈ w.known, ∃ t, t < w.next ∧ h = hash t
  received : ∀ n, ∀ o ∈ w.received n, OkObj hash w o

/-- The second world comes later; what was received up to position `n` is the same. -/
structure Later (n : Nat) (w w' : World) : Prop where
  next : w.next ≤ w'.next
  known : ∀ h ∈ w.known, h ∈ w'.known
  received : ∀ m, m ≤ n → w'.received m = w.received m

theorem Later.refl (n : Nat) (w : World) : Later n w w := ⟨le_refl _, fun _ h => h, fun _ _ => rfl⟩

theorem Later.trans {n : Nat} {w w' w'' : World} (h : Later n w w') (h' : Later n w' w'') : Later n w w'' :=
  ⟨h.next.trans h'.next, fun x hx => h'.known x (h.known x hx), fun m hm => (h'.received m hm).trans (h.received m hm)⟩

theorem OkObj.later {n : Nat} {w w' : World} {o : Obj} (h : OkObj hash w o) (hl : Later n w w') : OkObj hash w' o :=
  ⟨h.1.trans_le hl.next, fun he => hl.known _ (h.2 he)⟩

/-- What the plugins from position `n` on have received follows from what the first of them has received. -/
def Chain (phase : Option Str) : Nat → List Plugin → World → List Data → Prop
  | _, [], w, l => w.out.map Obj.data = l
  | n, p :: ps, w, l => (w.received n).map Obj.data = l ∧
      ∃ l', steps p (provenanceTag p.name phase) [] l = some l' ∧ Chain phase (n + 1) ps w l'

theorem Chain.same {ps : List Plugin} {n : Nat} {w w' : World} {l : List Data} (h : Chain phase n ps w l) (ho : w'.out = w.out)
    (hr : ∀ m, n ≤ m → w'.received m = w.received m) : Chain phase n ps w' l := by
  induction ps generalizing n l with
  | nil =>
    simp only [Chain] at h ⊢
    rw [ho]
    exact h
  | cons p ps ih =>
    obtain ⟨h1, l', h2, h3⟩ := h
    exact ⟨by rw [hr n (le_refl _)]; exact h1, l', h2, ih h3 fun m hm => hr m (by omega)⟩

theorem json_all_append {α β : Type} {f : α → Option β} {a b : List α} {a' b' : List β} (h : Json.all f a = some a')
    (h' : Json.all f b = some b') : Json.all f (a ++ b) = some (a' ++ b') := by
  induction a generalizing a' with
  | nil => cases h; exact h'
  | cons x a ih =>
    simp only [Json.all] at h
    split at h
    · rename_i y ys h1 h2
      cases h
      rw [List.cons_append, Json.all, h1, ih h2]
      rfl
    · cases h

theorem steps_snoc (p : Plugin) (tag : Data → Option Data) (got l : List Data) (d : Data) {a b : List Data}
    (h : steps p tag got l = some a) (h' : Json.all (passOn tag (got ++ l ++ [d])) (p.step (got ++ l ++ [d])) = some b) :
    steps p tag got (l ++ [d]) = some (a ++ b) := by
  induction l generalizing got a with
  | nil =>
    cases h
    simp only [List.append_nil] at h'
    simp [steps, h']
  | cons x l ih =>
    simp only [steps, Option.bind_eq_bind, Option.bind_eq_some_iff] at h
    obtain ⟨a1, h1, a2, h2, h3⟩ := h
    cases h3
    have := ih (got ++ [x]) h2 (by simpa using h')
    simp only [List.cons_append, steps, h1, this, Option.bind_eq_bind, Option.bind_some]
    simp

/-- What follows a plugin treats objects as it should. -/
def SinkOk (hash : Nat → Nat) (phase : Option Str) (n : Nat) (ps : List Plugin) (sink : World → Obj → Option World) : Prop :=
  ∀ w o l w', Chain phase (n + 1) ps w l → Good hash w → OkObj hash w o → sink w o = some w' →
    Chain phase (n + 1) ps w' (l ++ [o.data]) ∧ Good hash w' ∧ Later n w w'

theorem tagUnseen_ok {tag : Data → Option Data} {w : World} {o : Obj} (h : OkObj hash w o) :
    tagUnseen hash valid tag w o = some (w, o) := by
  unfold tagUnseen
  cases he : (o.data.get (str% "err")).truthy with
  | true => rfl
  | false =>
    have := h.2 he
    simp [this]

/-- One object passed on. -/
theorem emit_ok (hinj : Function.Injective hash) {tag : Data → Option Data} {got : List Obj} {n : Nat} {w w1 w2 : World} {x : Out} {o o2 : Obj}
    (hg : Good hash w) (hgot : ∀ o ∈ got, OkObj hash w o) (h1 : outObj got w x = some (w1, o))
    (h2 : tagUnseen hash valid tag w1 o = some (w2, o2)) :
    passOn tag (got.map Obj.data) x = some o2.data ∧ Good hash w2 ∧ Later n w w2 ∧ OkObj hash w2 o2 ∧ w2.out = w.out ∧
      w2.received = w.received := by
  cases x with
  | old i =>
    simp only [outObj, Option.map_eq_some_iff, Prod.mk.injEq] at h1
    obtain ⟨a, h1, rfl, rfl⟩ := h1
    have ho := hgot a (List.mem_of_getElem? h1)
    rw [tagUnseen_ok ho] at h2
    cases h2
    exact ⟨by simp [passOn, h1], hg, .refl n _, ho, rfl, rfl⟩
  | throws m => cases h1
  | new d =>
    simp only [outObj, Option.some.injEq, Prod.mk.injEq] at h1
    obtain ⟨rfl, rfl⟩ := h1
    have hg1 : Good hash { w with next := w.next + 1 } :=
      ⟨fun h hh => by obtain ⟨t, h1, h2⟩ := hg.known h hh; exact ⟨t, Nat.lt_succ_of_lt h1, h2⟩,
        fun m a ha => ⟨Nat.lt_succ_of_lt (hg.received m a ha).1, (hg.received m a ha).2⟩⟩
    have hnew : w.known.contains (hash w.next) = false := by
      rw [Bool.eq_false_iff]
      intro hc
      rw [List.contains_iff_mem] at hc
      obtain ⟨t, h1, h2⟩ := hg.known _ hc
      have := hinj h2
      omega
    unfold tagUnseen at h2
    simp only [hnew, Bool.or_false] at h2
    cases he : (d.get (str% "err")).truthy with
    | true =>
      simp only [he, if_true, Option.some.injEq, Prod.mk.injEq] at h2
      obtain ⟨rfl, rfl⟩ := h2
      refine ⟨by simp [passOn, isErr, he], hg1, ⟨Nat.le_succ _, fun _ h => h, fun _ _ => rfl⟩, ⟨Nat.lt_succ_self _, ?_⟩, rfl, rfl⟩
      intro hf
      simp only [isErr] at hf
      rw [he] at hf
      cases hf
    | false =>
      simp only [he, Bool.false_eq_true, if_false] at h2
      cases ht : tag d with
      | none => rw [ht] at h2; cases h2
      | some d' =>
        simp only [ht] at h2
        split at h2
        · simp only [Option.some.injEq, Prod.mk.injEq] at h2
          obtain ⟨rfl, rfl⟩ := h2
          refine ⟨by simp [passOn, isErr, he, ht], ⟨?_, ?_⟩, ⟨by simp; omega, fun h hh => List.mem_cons_of_mem _ hh, fun _ _ => rfl⟩,
            ⟨Nat.lt_succ_self _, fun _ => List.mem_cons_self ..⟩, rfl, rfl⟩
          · intro h hh
            rcases List.mem_cons.1 hh with rfl | hh
            · exact ⟨_, Nat.lt_succ_self _, rfl⟩
            · obtain ⟨t, h1, h2⟩ := hg1.known h hh
              exact ⟨t, Nat.lt_succ_of_lt h1, h2⟩
          · intro m a ha
            obtain ⟨h1, h2⟩ := hg1.received m a ha
            exact ⟨Nat.lt_succ_of_lt h1, fun hf => List.mem_cons_of_mem _ (h2 hf)⟩
        · cases h2

theorem feed_ok (hinj : Function.Injective hash) {tag : Data → Option Data} {got : List Obj} {n : Nat} {ps : List Plugin}
    {sink : World → Obj → Option World} (hs : SinkOk hash phase n ps sink) {xs : List Out} {w w' : World} {l : List Data}
    (hi : Chain phase (n + 1) ps w l) (hg : Good hash w) (hgot : ∀ o ∈ got, OkObj hash w o)
    (h : feed hash valid tag got sink xs w = some w') :
    ∃ l', Json.all (passOn tag (got.map Obj.data)) xs = some l' ∧ Chain phase (n + 1) ps w' (l ++ l') ∧ Good hash w' ∧ Later n w w' := by
  induction xs generalizing w l with
  | nil =>
    cases h
    exact ⟨[], rfl, by simpa using hi, hg, .refl n _⟩
  | cons x xs ih =>
    simp only [feed, Option.bind_eq_bind, Option.bind_eq_some_iff] at h
    obtain ⟨⟨w1, o1⟩, h1, ⟨w2, o2⟩, h2, w3, h3, h4⟩ := h
    obtain ⟨e1, g2, l2, ok2, e2, e3⟩ := emit_ok (n := n) hinj hg hgot h1 h2
    obtain ⟨i3, g3, l3⟩ := hs w2 o2 l w3 (hi.same e2 fun m _ => by rw [e3]) g2 ok2 h3
    obtain ⟨l', a1, a2, a3, a4⟩ := ih i3 g3 (fun o ho => (hgot o ho).later (l2.trans l3)) h4
    refine ⟨o2.data :: l', by simp [Json.all, e1, a1], by simpa using a2, a3, l2.trans (l3.trans a4)⟩

theorem push_ok (hinj : Function.Injective hash) (ps : List Plugin) (n : Nat) :
    ∀ w o l w', Chain phase n ps w l → Good hash w → OkObj hash w o → push hash valid phase n ps w o = some w' →
      Chain phase n ps w' (l ++ [o.data]) ∧ Good hash w' ∧ (∀ m, m < n → w'.received m = w.received m) ∧ w.next ≤ w'.next ∧
      ∀ h ∈ w.known, h ∈ w'.known := by
  induction ps generalizing n with
  | nil =>
    intro w o l w' hi hg ho h
    simp only [push, Option.some.injEq] at h
    subst h
    refine ⟨?_, ⟨hg.known, hg.received⟩, fun _ _ => rfl, le_refl _, fun _ h => h⟩
    simp only [Chain] at hi ⊢
    simp [hi]
  | cons p ps ih =>
    intro w o l w' hi hg ho h
    obtain ⟨h1, l', h2, h3⟩ := hi
    have hr : (w.receive n o).received n = w.received n ++ [o] := by simp [World.receive]
    have hg' : Good hash (w.receive n o) := by
      refine ⟨hg.known, fun m a ha => ?_⟩
      by_cases e : m = n
      · subst e
        rw [hr] at ha
        rcases List.mem_append.1 ha with ha | ha
        · exact hg.received m a ha
        · rw [List.mem_singleton] at ha
          subst ha
          exact ho
      · have : (w.receive n o).received m = w.received m := by simp [World.receive, Function.update_of_ne e]
        rw [this] at ha
        exact hg.received m a ha
    have hsink : SinkOk hash phase n ps (push hash valid phase (n + 1) ps) := by
      intro w o l w' hi hg ho h
      obtain ⟨a1, a2, a3, a4, a5⟩ := ih (n + 1) w o l w' hi hg ho h
      exact ⟨a1, a2, ⟨a4, a5, fun m hm => a3 m (by omega)⟩⟩
    have hi' : Chain phase (n + 1) ps (w.receive n o) l' := h3.same rfl fun m hm => by
      simp [World.receive, Function.update_of_ne (show m ≠ n by omega)]
    obtain ⟨l2, b1, b2, b3, b4⟩ := feed_ok hinj hsink hi' hg' (hg'.received n) h
    refine ⟨⟨?_, _, ?_, b2⟩, b3, fun m hm => ?_, b4.next, fun x hx => b4.known x hx⟩
    · rw [b4.received n (le_refl _), hr]
      simp [h1]
    · refine steps_snoc p _ [] l o.data h2 ?_
      rw [hr] at b1
      simpa [h1] using b1
    · rw [b4.received m (by omega)]
      simp [World.receive, Function.update_of_ne (show m ≠ n by omega)]

theorem complete_ok (hinj : Function.Injective hash) (ps : List Plugin) (n : Nat) {w w' : World} {l : List Data}
    (hi : Chain phase n ps w l) (hg : Good hash w) (h : complete hash valid phase n ps w = some w') :
    throughAll phase ps l = some (w'.out.map Obj.data) := by
  induction ps generalizing n w l with
  | nil =>
    cases h
    simp only [Chain] at hi
    rw [hi]
    rfl
  | cons p ps ih =>
    obtain ⟨h1, l', h2, h3⟩ := hi
    simp only [complete, Option.bind_eq_bind, Option.bind_eq_some_iff] at h
    obtain ⟨w1, h4, h5⟩ := h
    have hsink : SinkOk hash phase n ps (push hash valid phase (n + 1) ps) := by
      intro w o l w' hi hg ho h
      obtain ⟨a1, a2, a3, a4, a5⟩ := push_ok hinj ps (n + 1) w o l w' hi hg ho h
      exact ⟨a1, a2, ⟨a4, a5, fun m hm => a3 m (by omega)⟩⟩
    obtain ⟨l2, b1, b2, b3, -⟩ := feed_ok hinj hsink h3 hg (hg.received n) h4
    rw [h1] at b1
    simp only [throughAll, through, h2, b1, Option.bind_eq_bind, Option.bind_some]
    exact ih (n + 1) b2 b3 h5

theorem meetUnseen_ok (ps : List Plugin) {o : Obj} {w w1 : World} {l : List Data} (hi : Chain phase 0 ps w l) (hg : Good hash w)
    (hlt : o.tok < w.next) (h1 : meetUnseen hash valid w o = some w1) :
    Chain phase 0 ps w1 l ∧ Good hash w1 ∧ OkObj hash w1 o ∧ w1.next = w.next := by
  unfold meetUnseen at h1
  cases he : (o.data.get (str% "err")).truthy with
  | true =>
    simp only [he, Bool.true_or, if_true, Option.some.injEq] at h1
    subst h1
    refine ⟨hi, hg, ⟨hlt, fun hf => ?_⟩, rfl⟩
    rw [isErr, he] at hf
    cases hf
  | false =>
    simp only [he, Bool.false_or] at h1
    split at h1
    · rename_i hc
      cases h1
      rw [List.contains_iff_mem] at hc
      exact ⟨hi, hg, ⟨hlt, fun _ => hc⟩, rfl⟩
    · split at h1
      · cases h1
        refine ⟨hi.same rfl fun _ _ => rfl, ⟨?_, ?_⟩, ⟨hlt, fun _ => List.mem_cons_self ..⟩, rfl⟩
        · intro x hx
          rcases List.mem_cons.1 hx with rfl | hx
          · exact ⟨_, hlt, rfl⟩
          · exact hg.known x hx
        · intro m a ha
          exact ⟨(hg.received m a ha).1, fun hf => List.mem_cons_of_mem _ ((hg.received m a ha).2 hf)⟩
      · cases h1

theorem pushAll_ok (hinj : Function.Injective hash) (ps : List Plugin) {os : List Obj} {w w' : World} {l : List Data}
    (hi : Chain phase 0 ps w l) (hg : Good hash w) (ho : ∀ o ∈ os, o.tok < w.next) (h : pushAll hash valid phase ps os w = some w') :
    Chain phase 0 ps w' (l ++ os.map Obj.data) ∧ Good hash w' := by
  induction os generalizing w l with
  | nil =>
    cases h
    exact ⟨by simpa using hi, hg⟩
  | cons o os ih =>
    simp only [pushAll, Option.bind_eq_bind, Option.bind_eq_some_iff] at h
    obtain ⟨w1, h1, w2, h2, h3⟩ := h
    have hlt := ho o (by simp)
    obtain ⟨i1, g1, ok1, e1⟩ := meetUnseen_ok ps hi hg hlt h1
    obtain ⟨a1, a2, -, a4, -⟩ := push_ok hinj ps 0 w1 o l w2 i1 g1 ok1 h2
    have := ih a1 a2 (fun x hx => lt_of_lt_of_le (ho x (by simp [hx])) (by omega)) h3
    simpa using this

theorem inv_start (ps : List Plugin) (n next : Nat) :
    Chain phase n ps { next := next, known := [], received := fun _ => [], out := [] } [] := by
  induction ps generalizing n with
  | nil => rfl
  | cons p ps ih => exact ⟨rfl, [], rfl, ih (n + 1)⟩

theorem runPlugins_eq (hinj : Function.Injective hash) {ps : List Plugin} {next : Nat} {ds out : List Obj} (hd : ∀ o ∈ ds, o.tok < next)
    (h : runPlugins hash valid phase ps next ds = some out) :
    throughAll phase ps (ds.map Obj.data) = some (out.map Obj.data) := by
  simp only [runPlugins, Option.bind_eq_bind, Option.bind_eq_some_iff, Option.pure_def, Option.some.injEq] at h
  obtain ⟨w1, h1, w2, h2, rfl⟩ := h
  obtain ⟨i, g⟩ := pushAll_ok hinj ps (inv_start ps 0 next) (by constructor <;> simp) hd h1
  exact complete_ok hinj ps 0 (by simpa using i) g h2

end Clj
end Limabean

namespace Limabean
namespace Clj

open Spec

variable {hash : Nat → Nat} {valid : Data → Bool} {phase : Option Str}

theorem emit_total (hv : ∀ d, valid d = true) {tag : Data → Option Data} {got : List Obj} {w : World} {x : Out}
    (hgot : ∀ o ∈ got, OkObj hash w o) (hx : passOn tag (got.map Obj.data) x ≠ none) :
    ∃ w1 o w2 o2, outObj got w x = some (w1, o) ∧ tagUnseen hash valid tag w1 o = some (w2, o2) := by
  cases x with
  | old i =>
    cases h : got[i]? with
    | none => simp [passOn, h] at hx
    | some o => exact ⟨w, o, w, o, by simp [outObj, h], tagUnseen_ok (hgot o (List.mem_of_getElem? h))⟩
  | throws m => exact absurd rfl hx
  | new d =>
    refine ⟨{ w with next := w.next + 1 }, { tok := w.next, data := d }, ?_⟩
    by_cases hc : ((d.get (str% "err")).truthy || w.known.contains (hash w.next)) = true
    · exact ⟨_, _, rfl, by simp only [tagUnseen, hc, if_true]; rfl⟩
    · cases ht : tag d with
      | none =>
        cases he : (d.get (str% "err")).truthy with
        | true => simp [he] at hc
        | false => simp [passOn, isErr, he, ht] at hx
      | some d' => exact ⟨_, _, rfl, by simp only [tagUnseen, hc, ht, hv]; rfl⟩

/-- What follows a plugin does not throw. -/
def SinkTotal (hash : Nat → Nat) (phase : Option Str) (n : Nat) (ps : List Plugin) (sink : World → Obj → Option World) : Prop :=
  ∀ w o l, Chain phase (n + 1) ps w l → Good hash w → OkObj hash w o → sink w o ≠ none

theorem feed_total (hinj : Function.Injective hash) (hv : ∀ d, valid d = true) {tag : Data → Option Data} {got : List Obj} {n : Nat}
    {ps : List Plugin} {sink : World → Obj → Option World} (hs : SinkOk hash phase n ps sink) (ht : SinkTotal hash phase n ps sink) {xs : List Out}
    {w : World} {l : List Data} (hi : Chain phase (n + 1) ps w l) (hg : Good hash w) (hgot : ∀ o ∈ got, OkObj hash w o)
    (hx : ∀ x ∈ xs, passOn tag (got.map Obj.data) x ≠ none) : feed hash valid tag got sink xs w ≠ none := by
  induction xs generalizing w l with
  | nil => simp [feed]
  | cons x xs ih =>
    obtain ⟨w1, o, w2, o2, h1, h2⟩ := emit_total hv hgot (hx x (by simp))
    obtain ⟨-, g2, l2, ok2, e2, e3⟩ := emit_ok (n := n) hinj hg hgot h1 h2
    cases h3 : sink w2 o2 with
    | none => exact absurd h3 (ht w2 o2 l (hi.same e2 fun m _ => by rw [e3]) g2 ok2)
    | some w3 =>
      obtain ⟨i3, g3, l3⟩ := hs w2 o2 l w3 (hi.same e2 fun m _ => by rw [e3]) g2 ok2 h3
      simp only [feed, Option.bind_eq_bind, h1, h2, h3, Option.bind_some]
      exact ih i3 g3 (fun o ho => (hgot o ho).later (l2.trans l3)) fun x hm => hx x (by simp [hm])

/-- No plugin of the list passes on what it has not received, or a new object which cannot be tagged. -/
def Passable (phase : Option Str) (ps : List Plugin) : Prop :=
  ∀ p ∈ ps, ∀ l x, x ∈ p.step l ∨ x ∈ p.finish l → passOn (provenanceTag p.name phase) l x ≠ none

theorem sinkOk_push (hinj : Function.Injective hash) (ps : List Plugin) (n : Nat) :
    SinkOk hash phase n ps (push hash valid phase (n + 1) ps) := by
  intro w o l w' hi hg ho h
  obtain ⟨a1, a2, a3, a4, a5⟩ := push_ok hinj ps (n + 1) w o l w' hi hg ho h
  exact ⟨a1, a2, ⟨a4, a5, fun m hm => a3 m (by omega)⟩⟩

theorem push_total (hinj : Function.Injective hash) (hv : ∀ d, valid d = true) (ps : List Plugin) (hp : Passable phase ps) (n : Nat) :
    ∀ w o l, Chain phase n ps w l → Good hash w → OkObj hash w o → push hash valid phase n ps w o ≠ none := by
  induction ps generalizing n with
  | nil => intro w o l _ _ _; simp [push]
  | cons p ps ih =>
    intro w o l hi hg ho
    obtain ⟨h1, l', h2, h3⟩ := hi
    have hr : (w.receive n o).received n = w.received n ++ [o] := by simp [World.receive]
    have hg' : Good hash (w.receive n o) := by
      refine ⟨hg.known, fun m a ha => ?_⟩
      by_cases e : m = n
      · subst e
        rw [hr] at ha
        rcases List.mem_append.1 ha with ha | ha
        · exact hg.received m a ha
        · rw [List.mem_singleton] at ha
          subst ha
          exact ho
      · have : (w.receive n o).received m = w.received m := by simp [World.receive, Function.update_of_ne e]
        rw [this] at ha
        exact hg.received m a ha
    have hi' : Chain phase (n + 1) ps (w.receive n o) l' := h3.same rfl fun m hm => by
      simp [World.receive, Function.update_of_ne (show m ≠ n by omega)]
    have hp' : Passable phase ps := fun q hq => hp q (by simp [hq])
    simp only [push]
    refine feed_total hinj hv (sinkOk_push hinj ps n) (ih hp' (n + 1)) hi' hg' (hg'.received n) fun x hx => hp p (by simp) _ x (.inl hx)

theorem complete_total (hinj : Function.Injective hash) (hv : ∀ d, valid d = true) (ps : List Plugin) (hp : Passable phase ps) (n : Nat)
    {w : World} {l : List Data} (hi : Chain phase n ps w l) (hg : Good hash w) : complete hash valid phase n ps w ≠ none := by
  induction ps generalizing n w l with
  | nil => simp [complete]
  | cons p ps ih =>
    obtain ⟨h1, l', h2, h3⟩ := hi
    have hp' : Passable phase ps := fun q hq => hp q (by simp [hq])
    have ht := feed_total (valid := valid) (tag := provenanceTag p.name phase) (xs := p.finish ((w.received n).map Obj.data)) hinj hv
      (sinkOk_push hinj ps n) (push_total hinj hv ps hp' (n + 1)) h3 hg (hg.received n) fun x hx => hp p (by simp) _ x (.inr hx)
    cases h4 : feed hash valid (provenanceTag p.name phase) (w.received n) (push hash valid phase (n + 1) ps)
      (p.finish ((w.received n).map Obj.data)) w with
    | none => exact absurd h4 ht
    | some w1 =>
      obtain ⟨l2, b1, b2, b3, -⟩ := feed_ok hinj (sinkOk_push hinj ps n) h3 hg (hg.received n) h4
      simp only [complete, Option.bind_eq_bind, h4, Option.bind_some]
      exact ih hp' (n + 1) b2 b3

theorem pushAll_total (hinj : Function.Injective hash) (hv : ∀ d, valid d = true) (ps : List Plugin) (hp : Passable phase ps)
    {os : List Obj} {w : World} {l : List Data} (hi : Chain phase 0 ps w l) (hg : Good hash w) (ho : ∀ o ∈ os, o.tok < w.next) :
    pushAll hash valid phase ps os w ≠ none := by
  induction os generalizing w l with
  | nil => simp [pushAll]
  | cons o os ih =>
    cases h1 : meetUnseen hash valid w o with
    | none =>
      unfold meetUnseen at h1
      split at h1
      · cases h1
      · rw [hv, if_pos rfl] at h1
        cases h1
    | some w1 =>
      obtain ⟨i1, g1, ok1, e1⟩ := meetUnseen_ok ps hi hg (ho o (by simp)) h1
      cases h2 : push hash valid phase 0 ps w1 o with
      | none => exact absurd h2 (push_total hinj hv ps hp 0 w1 o l i1 g1 ok1)
      | some w2 =>
        obtain ⟨a1, a2, -, a4, -⟩ := push_ok hinj ps 0 w1 o l w2 i1 g1 ok1 h2
        simp only [pushAll, Option.bind_eq_bind, h1, h2, Option.bind_some]
        exact ih a1 a2 fun x hx => lt_of_lt_of_le (ho x (by simp [hx])) (by omega)

theorem runPlugins_total (hinj : Function.Injective hash) (hv : ∀ d, valid d = true) {ps : List Plugin} (hp : Passable phase ps)
    {next : Nat} {ds : List Obj} (hd : ∀ o ∈ ds, o.tok < next) : ∃ out, runPlugins hash valid phase ps next ds = some out := by
  have hg : Good hash { next := next, known := [], received := fun _ => [], out := [] } := by constructor <;> simp
  cases h1 : pushAll hash valid phase ps ds { next := next, known := [], received := fun _ => [], out := [] } with
  | none => exact absurd h1 (pushAll_total hinj hv ps hp (inv_start ps 0 next) hg hd)
  | some w1 =>
    obtain ⟨i, g⟩ := pushAll_ok hinj ps (inv_start ps 0 next) hg hd h1
    cases h2 : complete hash valid phase 0 ps w1 with
    | none => exact absurd h2 (complete_total hinj hv ps hp 0 i g)
    | some w2 => exact ⟨w2.out, by simp [runPlugins, h1, h2]⟩

end Clj
end Limabean
