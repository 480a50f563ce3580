/-
C48: the order on costs is a strict total order.
-/
import Verif.Clj.Inventory
import Verif.Props.Examples

namespace Limabean
namespace Clj

theorem nilFirst_total {α : Type} {cmp : α → α → Ordering} (h : TotalCmp cmp) : TotalCmp (nilFirst cmp) where
  eq a b := by
    cases a <;> cases b <;> simp [nilFirst, h.eq]
  swap a b := by
    cases a <;> cases b
    · rfl
    · rfl
    · rfl
    · exact h.swap _ _
  trans a b c := by
    cases a <;> cases b <;> cases c <;> simp [nilFirst]
    exact h.trans _ _ _

theorem mergeFlag_total : TotalCmp fun a b => nilFirst (fun _ _ => .eq) (mergeFlag a) (mergeFlag b) where
  eq a b := by cases a <;> cases b <;> decide
  swap a b := by cases a <;> cases b <;> decide
  trans a b c := by cases a <;> cases b <;> cases c <;> decide

/-- What the order of keys looks at. -/
def CostKey.numbers (k : CostKey) : Date × Str × ℚ × Option Str × Bool := (k.date, k.cur, k.perUnit, k.label, k.merge)

/-- The order on what the order of keys looks at. -/
def compareNumbers : Option (Date × Str × ℚ × Option Str × Bool) → Option (Date × Str × ℚ × Option Str × Bool) → Ordering :=
  nilFirst fun a b => (cmpDate a.1 b.1).then ((cmpStr a.2.1 b.2.1).then ((compare a.2.2.1 b.2.2.1).then
    ((nilFirst cmpStr a.2.2.2.1 b.2.2.2.1).then (nilFirst (fun _ _ => .eq) (mergeFlag a.2.2.2.2) (mergeFlag b.2.2.2.2)))))

theorem compareNumbers_total : TotalCmp compareNumbers :=
  nilFirst_total (cmpDate_total.lex (cmpStr_total.lex ((TotalCmp.of_linearOrder (β := ℚ)).lex
    ((nilFirst_total cmpStr_total).lex mergeFlag_total))))

theorem compareCostKeys_numbers (a b : Option CostKey) :
    compareCostKeys a b = compareNumbers (a.map (·.numbers)) (b.map (·.numbers)) := by
  cases a <;> cases b <;> rfl

theorem compareCostKeys_pre : PreCmp compareCostKeys := by
  have : compareCostKeys = fun a b => compareNumbers (a.map (·.numbers)) (b.map (·.numbers)) := by
    funext a b
    exact compareCostKeys_numbers a b
  rw [this]
  exact compareNumbers_total.pre _

/-- The order of keys, refined so that only equal keys tie. -/
def fineCostKeys (a b : Option CostKey) : Ordering :=
  compareNumbers (a.map (·.numbers)) (b.map (·.numbers)) |>.then (compare (a.elim 0 (·.isInt.toNat)) (b.elim 0 (·.isInt.toNat)))

theorem fineCostKeys_total : TotalCmp fineCostKeys :=
  (compareNumbers_total.lex (TotalCmp.of_linearOrder (β := Nat))).on
    (fun k : Option CostKey => (k.map CostKey.numbers, k.elim 0 fun k => k.isInt.toNat)) fun a b h => by
      cases a <;> cases b <;> simp at h
      · rfl
      · rename_i x y
        obtain ⟨h1, h2⟩ := h
        obtain ⟨d, c, u, l, m, i⟩ := x
        obtain ⟨d', c', u', l', m', i'⟩ := y
        simp [CostKey.numbers] at h1
        have : i = i' := by cases i <;> cases i' <;> simp at h2 <;> rfl
        simp [h1, this]

end Clj

open Clj

/-- C48: the order of positions is total on costs: of two costs exactly one is before the other unless they tie, the order is
transitive and ties are interchangeable; the ties are exactly the equal costs, as numbers, and positions without cost, which come
first. -/
theorem C48_total_order :
    (∀ a, compareCostKeys a a = .eq) ∧
    (∀ a b, (compareCostKeys a b = .lt ∧ compareCostKeys b a = .gt) ∨
      (compareCostKeys a b = .eq ∧ compareCostKeys b a = .eq ∧ ∀ c, compareCostKeys a c = compareCostKeys b c) ∨
      (compareCostKeys a b = .gt ∧ compareCostKeys b a = .lt)) ∧
    (∀ a b c, compareCostKeys a b = .lt → compareCostKeys b c = .lt → compareCostKeys a c = .lt) ∧
    (∀ k, compareCostKeys none (some k) = .lt) ∧
    (∀ p q : Position, compareCostKeys (positionKey p) (positionKey q) = .eq ↔
      match p.cost, q.cost with
      | none, none => True
      | some c, some d => c.date = d.date ∧ c.cur = d.cur ∧ c.perUnit.val = d.perUnit.val ∧ c.label = d.label ∧
          c.merge = d.merge
      | _, _ => False) := by
  have h := compareNumbers_total
  simp only [compareCostKeys_numbers]
  refine ⟨fun a => h.refl _, ?_, fun a b c => h.trans _ _ _, fun k => rfl, ?_⟩
  · intro a b
    cases e : compareNumbers (a.map (·.numbers)) (b.map (·.numbers)) with
    | lt => exact Or.inl ⟨rfl, by rw [h.swap, e]; rfl⟩
    | eq => exact Or.inr (Or.inl ⟨rfl, (by rw [h.swap, e]; rfl), fun c => by rw [(h.eq _ _).1 e]⟩)
    | gt => exact Or.inr (Or.inr ⟨rfl, by rw [h.swap, e]; rfl⟩)
  · intro p q
    rw [h.eq]
    cases hp : p.cost <;> cases hq : q.cost <;> simp [positionKey, hp, hq, CostKey.numbers]

/-- A lot of five bought at ten. -/
def Ex.lotInt : Position := ⟨⟨5, 0⟩, Ex.usd, some ⟨⟨2024, 1, 1⟩, ⟨10, 0⟩, ⟨50, 0⟩, Ex.nzd, none, false⟩⟩

/-- A lot of five bought at ten, which was written with two decimal places. -/
def Ex.lotDec : Position := ⟨⟨5, 0⟩, Ex.usd, some ⟨⟨2024, 1, 1⟩, ⟨1000, 2⟩, ⟨5000, 2⟩, Ex.nzd, none, false⟩⟩

/-- C48: keys of costs which tie need not be the same key: a cost written without decimal places has another key than the same cost
written with them. -/
theorem C48_ties_not_same_key : compareCostKeys (positionKey Ex.lotInt) (positionKey Ex.lotDec) = .eq ∧
    positionKey Ex.lotInt ≠ positionKey Ex.lotDec := by decide +kernel

/-- Costs which differ in the label only: the one without label comes first. -/
example : compareCostKeys (some ⟨⟨2024, 1, 1⟩, Ex.nzd, 10, none, false, true⟩)
    (some ⟨⟨2024, 1, 1⟩, Ex.nzd, 10, some (str% "a"), false, false⟩) = .lt := by decide +kernel

end Limabean
