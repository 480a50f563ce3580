/-
C122: filters can be combined, and reports follow.
-/
import Verif.Props.C70
import Verif.Props.C94

namespace Limabean

open Clj Spec

variable {E : Ext} {L : BookLib}

namespace Spec

/-- Two lists of filters which let the same through. -/
def SameFilters (fs gs : List Filter) : Prop := ∀ x, (∀ f ∈ fs, f x = true) ↔ ∀ g ∈ gs, g x = true

end Spec

namespace Clj

theorem allOf_same {α : Type} {fs gs : List Filter} (h : SameFilters fs gs) (fields : α → Fields) (l : List α) :
    allOf fields fs l = allOf fields gs l := by
  have e : ∀ fs : List Filter, allOf fields fs l = l.filter fun x => fs.all fun f => f (fields x) := by
    intro fs
    unfold allOf
    split
    · rename_i h
      rw [List.isEmpty_iff.1 h]
      simp
    · rfl
  rw [e, e]
  refine List.filter_congr fun x _ => ?_
  rw [Bool.eq_iff_iff, List.all_eq_true, List.all_eq_true]
  exact h (fields x)

end Clj

/-- **C122**: filters which let the same through give the same reports, whatever was loaded. -/
theorem C122_same {fs gs : List Filter} (h : SameFilters fs gs) (m : LoadedBeans E) :
    m.inventory fs = m.inventory gs ∧ m.balances fs = m.balances gs ∧ m.incomeStatement fs = m.incomeStatement gs ∧
      m.journal fs = m.journal gs := by
  have happ : ∀ k : Filter, SameFilters (fs ++ [k]) (gs ++ [k]) := by
    intro k x
    simp only [List.forall_mem_append, h x]
  have hinv : ∀ {fs gs : List Filter}, SameFilters fs gs → m.inventory fs = m.inventory gs := by
    intro fs gs h
    unfold LoadedBeans.inventory selectedMaps
    rw [allOf_same h]
  refine ⟨hinv h, hinv (happ _), hinv (happ _), ?_⟩
  unfold LoadedBeans.journal selectedMaps
  rw [allOf_same h]

/-- **C122**: so the order of filters does not matter, nor that one is repeated or put into another one, and negations are as in logic. -/
theorem C122_laws (f g : Filter) (fs gs : List Filter) :
    (fs.Perm gs → SameFilters fs gs) ∧ SameFilters (f :: f :: fs) (f :: fs) ∧ SameFilters [everyF fs] fs ∧
    SameFilters (everyF fs :: gs) (fs ++ gs) ∧ SameFilters [someF [f]] [f] ∧ SameFilters [noneF [noneF [f]]] [f] ∧
    SameFilters [noneF [f, g]] [noneF [f], noneF [g]] ∧ SameFilters [noneF [everyF [f, g]]] [someF [noneF [f], noneF [g]]] ∧
    SameFilters [everyF [f, someF [g, noneF [f]]]] [f, g] := by
  refine ⟨fun h x => ⟨fun hx k hk => hx k (h.mem_iff.2 hk), fun hx k hk => hx k (h.mem_iff.1 hk)⟩, ?_, ?_, ?_, ?_, ?_, ?_, ?_, ?_⟩ <;>
    intro x
  · simp
  · simp [everyF]
  · simp [everyF, or_imp, forall_and]
  · simp [someF]
  · simp [noneF]
  · simp [noneF]
  · simp only [noneF, everyF, someF, List.forall_mem_singleton, List.any_cons, List.any_nil, List.all_cons, List.all_nil]
    cases f x <;> cases g x <;> simp
  · simp only [noneF, everyF, someF, List.forall_mem_cons, List.any_cons, List.any_nil, List.all_cons, List.all_nil]
    cases f x <;> cases g x <;> simp

namespace Clj

theorem inventory_fewer {b : Beans} {fs gs : List Filter} {inv : AMap Str (List Position)} (h : inventory b fs = some inv)
    (hs : ∀ x, (∀ g ∈ gs, g x = true) → ∀ f ∈ fs, f x = true) : ∃ inv', inventory b gs = some inv' := by
  rw [inventory_some]
  intro x hx
  refine (inventory_some b fs).1 ⟨inv, h⟩ x ?_
  rw [selection, List.mem_filter, decide_eq_true_iff] at hx ⊢
  exact ⟨hx.1, hs x.seen hx.2⟩

end Clj

/-- **C122**: what one filter selects and what another one selects, together, are what either selects and what both select, together: for
every account, currency and cost, beside any further filters. -/
theorem C122_adds (b : Beans) (fs : List Filter) (f g : Filter) {i1 i2 : AMap Str (List Position)} (h1 : inventory b (f :: fs) = some i1)
    (h2 : inventory b (g :: fs) = some i2) :
    ∃ either both, inventory b (someF [f, g] :: fs) = some either ∧ inventory b (everyF [f, g] :: fs) = some both ∧
      ∀ acc cur cost, holding either acc cur cost + holding both acc cur cost = holding i1 acc cur cost + holding i2 acc cur cost := by
  obtain ⟨both, hb⟩ := inventory_fewer (gs := everyF [f, g] :: fs) h1 (by simp +contextual [everyF])
  obtain ⟨rest, hr⟩ := inventory_fewer (gs := everyF [g, noneF [f]] :: fs) h2 (by simp +contextual [everyF])
  have s1 : Splits (someF [f, g]) f (everyF [g, noneF [f]]) := by
    intro x
    simp only [someF, everyF, noneF, List.any_cons, List.any_nil, List.all_cons, List.all_nil]
    cases f x <;> cases g x <;> simp
  have s2 : Splits g (everyF [f, g]) (everyF [g, noneF [f]]) := by
    intro x
    simp only [everyF, noneF, List.any_cons, List.any_nil, List.all_cons, List.all_nil]
    cases f x <;> cases g x <;> simp
  obtain ⟨either, he⟩ := (C94_split b fs s1).1.2 ⟨⟨i1, h1⟩, rest, hr⟩
  refine ⟨either, both, he, hb, fun acc cur cost => ?_⟩
  rw [(C94_split b fs s1).2 _ _ _ he h1 hr, (C94_split b fs s2).2 _ _ _ h2 hb hr]
  ring

/-- **C122**: what a filter selects and what it does not select make up the whole. -/
theorem C122_rest (b : Beans) (fs : List Filter) (f : Filter) {all : AMap Str (List Position)} (h : inventory b fs = some all) :
    ∃ i1 i2, inventory b (f :: fs) = some i1 ∧ inventory b (noneF [f] :: fs) = some i2 ∧
      ∀ acc cur cost, holding all acc cur cost = holding i1 acc cur cost + holding i2 acc cur cost := by
  obtain ⟨i1, h1⟩ := inventory_fewer (gs := f :: fs) h (by simp +contextual)
  obtain ⟨i2, h2⟩ := inventory_fewer (gs := noneF [f] :: fs) h (by simp +contextual)
  refine ⟨i1, i2, h1, h2, fun acc cur cost => ?_⟩
  have s : Splits (fun _ => true) f (noneF [f]) := by
    intro x
    simp only [noneF, List.any_cons, List.any_nil]
    cases f x <;> simp
  have hall : inventory b ((fun _ => true) :: fs) = some all := by
    rw [← h]
    unfold inventory
    rw [reportRows_eq, reportRows_eq]
    congr 3
    unfold selection
    refine List.filter_congr fun x _ => ?_
    rw [decide_eq_decide]
    simp [Selected]
  exact (C94_split b fs s).2 _ _ _ hall h1 h2 acc cur cost

/-- **C122**, for a loaded beanfile, with any raw plugins. -/
theorem C122_loaded (F : Front E L) (hinj : Function.Injective F.hash) (ho : IsMapOrder F.ordm) (hs : IsOrder F.ord) (hE : SpanStore E)
    (hL : DatesExist L) (src : E.Sources) {p : Parsed} (hp : OptionsOk p.options) (hd : ∀ d ∈ p.directives, DatesOk d)
    (hon : OptionsNamed p.options) (hoo : (p.options.others.map Prod.fst).Nodup) (order : AMap Str Nat → AMap Str Nat)
    (hreg : F.registry = fun ds o => some (registryOf order ds o))
    {m : LoadedBeans E} (h : loadBeanfile F (.ready src (.ok p)) = .ok m) (he : m.error = none) (hb : bookedPlugins F p m.options = [])
    (fs : List Filter) (f g : Filter) :
    (∀ all, m.inventory fs = some all → ∃ i1 i2, m.inventory (f :: fs) = some i1 ∧ m.inventory (noneF [f] :: fs) = some i2 ∧
      ∀ acc cur cost, holding all acc cur cost = holding i1 acc cur cost + holding i2 acc cur cost) ∧
    (∀ i1 i2, m.inventory (f :: fs) = some i1 → m.inventory (g :: fs) = some i2 →
      ∃ either both, m.inventory (someF [f, g] :: fs) = some either ∧ m.inventory (everyF [f, g] :: fs) = some both ∧
        ∀ acc cur cost, holding either acc cur cost + holding both acc cur cost = holding i1 acc cur cost + holding i2 acc cur cost) := by
  obtain ⟨src', k, xs, ds, out, w, -, -, -, -, h5⟩ := C70_reports F hinj ho hs hE hL src hp hd hon hoo order hreg h he hb
  have h6 := fun fs => (h5 fs).1
  simp only [h6]
  exact ⟨fun all h => C122_rest _ fs f h, fun i1 i2 h1 h2 => C122_adds _ fs f g h1 h2⟩

namespace Ex

/-- Bread and wine from two shops. -/
def twoShops : List Booked.Directive :=
  let post (acc : Str) (n : Int) : Booked.Posting := { acc := acc, units := ⟨n, 0⟩, cur := nzd }
  let txn (day : Nat) (shop : Str) (ps : List Booked.Posting) : Booked.Directive :=
    { idx := day, date := ⟨2024, 1, day⟩, variant := .transaction { flag := str% "*", payee := some shop, postings := ps } }
  [txn 1 (str% "Baker") [post food 5, post bank (-5)], txn 2 (str% "Grocer") [post food 12, post bank (-12)],
   txn 20 (str% "Baker") [post food 4, post bank (-4)]]

/-- What is held, in an inventory. -/
def unitsShown (inv : Option (AMap Str (List Position))) (acc : Str) : Option (List Dec) :=
  inv.map fun i => ((i.get acc).getD []).map Position.units

end Ex

/-- A case of `C122_adds` and `C122_rest`: 9 at the baker's and 17 until the tenth are 21 in either and 5 in both. -/
example :
    let b : Beans := ⟨Ex.twoShops, Toy.options, registryBuild id Ex.twoShops (optionsMap Toy.options)⟩
    let f := payeeMatch (· == str% "Baker")
    let g := dateLt ⟨2024, 1, 10⟩
    Ex.unitsShown (inventory b [f]) Ex.food = some [⟨9, 0⟩] ∧ Ex.unitsShown (inventory b [g]) Ex.food = some [⟨17, 0⟩] ∧
    Ex.unitsShown (inventory b [someF [f, g]]) Ex.food = some [⟨21, 0⟩] ∧ Ex.unitsShown (inventory b [everyF [f, g]]) Ex.food = some [⟨5, 0⟩] ∧
    Ex.unitsShown (inventory b [noneF [f]]) Ex.food = some [⟨12, 0⟩] ∧ Ex.unitsShown (inventory b []) Ex.food = some [⟨21, 0⟩] := by
  refine ⟨?_, ?_, ?_, ?_, ?_, ?_⟩ <;> decide +kernel

end Limabean
