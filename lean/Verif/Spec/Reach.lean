import Verif.Spec.Synchronous

/-!
Specification of C273: influence travels at most as far as agents see and move.
-/

namespace Verif.Sync

open Schedule Grid Torus

variable {T B D V : Type}

/-- Two populations have the same agents, with the same numbers, in a region. -/
def SameThere (there : B → Prop) (pop pop' : List (Nat × B)) : Prop := ∀ i b, there b → ((i, b) ∈ pop ↔ (i, b) ∈ pop')

/-- Two schedules have the same agents, with the same numbers, times and orderings, in a region. -/
def SameEvents (there : B → Prop) (q q' : Queue T (B × Bool)) : Prop := ∀ e, there e.1.agent.1 → (e ∈ q ↔ e ∈ q')

/-- Agents see at most as far as `R`: their reach is at most `R`, if it is less than about half of a torus, or else even with three quarters of a cell added. -/
def Sees (w h d : Rat) (tor : Bool) (reach : B → Rat) (R : Rat) : Prop :=
  ∀ b, reach b + 3 / 4 * d ≤ R ∨ (reach b ≤ R ∧ (tor = true → 2 * reach b < w - d ∧ 2 * reach b < h - d))

/-- At most `r` cells from `p`, along each axis. -/
def Nearby (p l : Loc) (r : Rat) : Prop := (((l.x - p.x).natAbs : Nat) : Rat) ≤ r ∧ (((l.y - p.y).natAbs : Nat) : Rat) ≤ r

end Verif.Sync
