import Verif.Spec.Rename
import Verif.Spec.Retime
import Verif.Spec.Permute
import Verif.Spec.MachineSchedule

/-!
Specification of C264: other times and orderings in the same order, with the times of the code.
-/

namespace Verif.MachineSchedule

open Machine (F lt)

/-- The times and orderings are in the same order, and what is not a number stays so. -/
def SameOrder (σ : F → F) (ρ : Int → Int) : Prop :=
  (∀ a b, lt (σ a) (σ b) = lt a b) ∧ (∀ a, σ a = .nan ↔ a = .nan) ∧ ∀ i j, ρ i < ρ j ↔ i < j

end Verif.MachineSchedule
