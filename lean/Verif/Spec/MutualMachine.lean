import Verif.Model.ParMachineField

/-!
Specification of C263: being neighbours is mutual, with machine floats.
-/

namespace Verif.Machine

open Grid

/-- The cell of `p` is one of the cells that the searches visit: numbered from 0 to the number of cells, exclusively, along both axes. -/
def InCells (rnd : Rat → Rat) (w h d : F) (p : PosF) : Prop :=
  (0 ≤ (discretize rnd d p).x ∧ (discretize rnd d p).x < toI32 (cellsAlong rnd w d)) ∧
  (0 ≤ (discretize rnd d p).y ∧ (discretize rnd d p).y < toI32 (cellsAlong rnd h d))

/-- The numbers of cells along the axes and within the distance are far from the limits of `i32`. -/
def SmallReach (rnd : Rat → Rat) (w h d dis : F) : Prop :=
  (0 ≤ toI32 (floor (div rnd dis d)) ∧ toI32 (floor (div rnd dis d)) < 2 ^ 30) ∧
  toI32 (cellsAlong rnd w d) ≤ 2 ^ 30 ∧ toI32 (cellsAlong rnd h d) ≤ 2 ^ 30

/-- Among the bags of the cells of the field, `o` is in that of cell `c` and in no other. -/
def OnlyIn {O : Type} (rnd : Rat → Rat) (w h d : F) (bag : Loc → List O) (c : Loc) (o : O) : Prop :=
  ∀ b : Loc, 0 ≤ b.x → b.x ≤ toI32 (cellsAlong rnd w d) → 0 ≤ b.y → b.y ≤ toI32 (cellsAlong rnd h d) → (o ∈ bag b ↔ b = c)

end Verif.Machine
