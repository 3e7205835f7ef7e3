import Verif.Spec.Waiting
import Verif.Model.MachineSchedule
import Verif.Model.Single

/-! Vocabulary of C192 to C194. -/

namespace Verif.MachineSchedule

open Machine (F)

/-- A bound for the turns an agent whose time is `t` may take up to the time `u`: two for each unit of time, and one. -/
def turnsUpTo (u : Rat) : F → Nat
  | .fin q => if q ≤ u then (2 * (u - q)).ceil.toNat + 1 else 0
  | _ => 0

/-- A value of the type `f32`. -/
def Stored : F → Prop
  | .fin q => Single.IsF32 q ∧ |q| ≤ Machine.largest
  | _ => True

/-- The time of an agent after `k` turns. -/
def after (rnd : Rat → Rat) (t : F) : Nat → F
  | 0 => t
  | k + 1 => Machine.add rnd (after rnd t k) (.fin 1)

/-- An agent at `t` that repeats comes to a halt before `u`: some turns later its time is before `u`, and no turn changes it any more. -/
def HaltsBefore (rnd : Rat → Rat) (t u : F) : Prop :=
  ∃ k, Machine.lt (after rnd t k) u = true ∧ Machine.add rnd (after rnd t k) (.fin 1) = after rnd t k

end Verif.MachineSchedule
