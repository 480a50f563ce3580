/-
The numbers in a directive.
-/
import Verif.Pod.Types

namespace Limabean
namespace Spec

/-- The number of a metadata value. -/
def metaNumbers : MetaValue → List Dec
  | .amount u _ => [u]
  | .number n => [n]
  | _ => []

/-- The numbers in metadata. -/
def metadataNumbers (m : Option (List (Str × MetaValue))) : List Dec := (m.getD []).flatMap fun p => metaNumbers p.2

/-- The numbers in a posting as parsed: units, cost, price, metadata. -/
def postingNumbers (p : Raw.PostingSpec) : List Dec :=
  p.units.toList ++ p.costSpec.toList.flatMap (fun c => c.perUnit.toList ++ c.total.toList) ++
    p.priceSpec.toList.flatMap (fun c => c.perUnit.toList ++ c.total.toList) ++ metadataNumbers p.metadata

/-- The numbers in a booked posting. -/
def bookedPostingNumbers (p : Booked.Posting) : List Dec :=
  [p.units] ++ p.cost.toList.flatMap (fun c => [c.perUnit, c.total]) ++
    p.price.toList.flatMap (fun c => c.perUnit :: c.total.toList) ++ metadataNumbers p.metadata

/-- The numbers in the part which depends on the kind, but for the tolerance of a balance. -/
def variantNumbers : Raw.Variant → List Dec
  | .transaction t => t.postings.flatMap postingNumbers
  | .price p => p.price.perUnit :: p.price.total.toList
  | .balance b => [b.units]
  | .custom c => c.values.flatMap metaNumbers
  | _ => []

/-- The same for a booked directive. -/
def bookedVariantNumbers : Booked.Variant → List Dec
  | .transaction t => t.postings.flatMap bookedPostingNumbers
  | .price p => p.price.perUnit :: p.price.total.toList
  | .balance b => [b.raw.units]
  | .custom c => c.values.flatMap metaNumbers
  | _ => []

/-- The tolerance of a balance. -/
def toleranceOf : Raw.Variant → Option Dec
  | .balance b => b.tolerance
  | _ => none

/-- The same for a booked directive. -/
def bookedToleranceOf : Booked.Variant → Option Dec
  | .balance b => b.raw.tolerance
  | _ => none

/-- A number has decimals, or is an integer of at most 64 bits. -/
def FitsLong (n : Dec) : Prop := n.s ≠ 0 ∨ (-2 ^ 63 ≤ n.m ∧ n.m < 2 ^ 63)

/-- All integers have at most 64 bits, and the tolerance of a balance has decimals. -/
def NumbersFit (d : Raw.Directive) : Prop :=
  (∀ n ∈ metadataNumbers d.metadata ++ variantNumbers d.variant, FitsLong n) ∧ ∀ t ∈ toleranceOf d.variant, t.s ≠ 0

/-- The same for a booked directive. -/
def BookedNumbersFit (d : Booked.Directive) : Prop :=
  (∀ n ∈ metadataNumbers d.metadata ++ bookedVariantNumbers d.variant, FitsLong n) ∧ ∀ t ∈ bookedToleranceOf d.variant, t.s ≠ 0

end Spec
end Limabean
