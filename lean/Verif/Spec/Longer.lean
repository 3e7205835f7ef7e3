/-! Specification of C280: a longer run begins like a shorter one. -/

namespace Verif.Longer

/-- A limit on the number of generations allows at least as much as another; 0 stands for no limit. -/
def Allows (n m : Nat) : Prop := m = 0 ∨ (n ≠ 0 ∧ n ≤ m)

instance (n m : Nat) : Decidable (Allows n m) := by unfold Allows; infer_instance

end Verif.Longer
