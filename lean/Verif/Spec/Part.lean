import Verif.Spec.Split

/-! Specification of C282: an exploration of more configurations has the outcomes of an exploration of fewer. -/

namespace Verif.Explore

variable {V S : Type}

/-- Each list of values has at least the values of the other, in the same order. -/
def FewerValues : List (List V) → List (List V) → Prop := List.Forall₂ List.Sublist

/-- Both explorations succeed, and the second has every outcome of the first, at least as often. -/
def PartOf (few many : Option (List (Row S))) : Prop := ∃ r r', few = some r ∧ many = some r' ∧ (outcomes r).Subperm (outcomes r')

end Verif.Explore
