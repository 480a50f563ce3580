/-
C05: the subaccount relation of the server is the component prefix order.
-/
import Verif.Proofs.Accounts

namespace Limabean

/-- C05: an account counts towards the balance of another iff the components of the latter are an initial segment of
its own. -/
theorem C05_subaccount_iff (a b : Str) :
    isNonstrictSubaccount a b = true ↔ Spec.components a <+: Spec.components b :=
  sub_iff_below a b

/-- C05: it is a partial order. -/
theorem C05_partial_order :
    (∀ a, isNonstrictSubaccount a a = true) ∧
    (∀ a b c, isNonstrictSubaccount a b = true → isNonstrictSubaccount b c = true → isNonstrictSubaccount a c = true) ∧
    (∀ a b, isNonstrictSubaccount a b = true → isNonstrictSubaccount b a = true → a = b) := by
  simp only [sub_iff_below]
  exact ⟨Spec.Below.refl, fun _ _ _ h h' => h.trans h', fun _ _ h h' => h.antisymm h'⟩

/-- C05: the accounts above a given account form a chain, so an account counts towards exactly the balances of its
ancestors and itself. -/
theorem C05_chain (a b c : Str) (ha : isNonstrictSubaccount a c = true) (hb : isNonstrictSubaccount b c = true) :
    isNonstrictSubaccount a b = true ∨ isNonstrictSubaccount b a = true := by
  simp only [sub_iff_below] at *
  exact List.prefix_or_prefix_of_prefix ha hb

example : isNonstrictSubaccount (str% "Assets:Bank") (str% "Assets:Bank:Current") = true := by decide
example : isNonstrictSubaccount (str% "Assets:Bank") (str% "Assets:Bank2") = false := by decide
example : isNonstrictSubaccount (str% "Assets:Bank:Current") (str% "Assets:Bank") = false := by decide
example : Spec.components (str% "Assets:Bank:Current") = [str% "Assets", str% "Bank", str% "Current"] := by decide

end Limabean
