import Verif.Spec.Single
import Verif.Spec.Field2D

/-!
What the continuous field shows when positions are singles: histories (calls listed newest first) over cells that are squares up to a rounding.
-/

namespace Verif.Single

open Torus
open Field2D (FieldOp InField)

/-- How far from a square of side `d` a position of coordinate `x` may be and still be counted in it. -/
def slack (d x : Rat) : Rat := x / 2 ^ 24 + d / 2 ^ 150

/-- The cells of a field cut the positions into `d` by `d` squares, up to the slack, with no overlap and in order; a coordinate that `d` divides without
rounding is in its exact square. -/
structure Squares (cell : Pos → Int × Int) (d : Rat) : Prop where
  x : ∀ p : Pos, 0 ≤ p.x → (cell p).1 * d ≤ p.x + slack d p.x ∧ p.x - slack d p.x < ((cell p).1 + 1) * d
  y : ∀ p : Pos, 0 ≤ p.y → (cell p).2 * d ≤ p.y + slack d p.y ∧ p.y - slack d p.y < ((cell p).2 + 1) * d
  ordered : ∀ p q : Pos, (p.x ≤ q.x → (cell p).1 ≤ (cell q).1) ∧ (p.y ≤ q.y → (cell p).2 ≤ (cell q).2)
  exactX : ∀ p : Pos, IsF32 (p.x / d) → (cell p).1 * d ≤ p.x ∧ p.x < ((cell p).1 + 1) * d
  exactY : ∀ p : Pos, IsF32 (p.y / d) → (cell p).2 * d ≤ p.y ∧ p.y < ((cell p).2 + 1) * d

variable {O : Type} [BEq O]

/-- The objects placed in the cell of `q` since the last lazy_update and not removed, oldest first. -/
def written (cell : Pos → Int × Int) : List (FieldOp O) → Pos → List O
  | [], _ => []
  | .place o l :: h, q => if cell l = cell q then written cell h q ++ [o] else written cell h q
  | .remove o l :: h, q => if cell l = cell q then (written cell h q).filter (fun x => x != o) else written cell h q
  | .update :: h, q => written cell h q
  | .lazyUpdate :: _, _ => []

/-- The objects that were in the cell of `q` at the last lazy_update. -/
def published (cell : Pos → Int × Int) : List (FieldOp O) → Pos → List O
  | [], _ => []
  | .place _ _ :: h, q => published cell h q
  | .remove _ _ :: h, q => published cell h q
  | .update :: h, q => published cell h q
  | .lazyUpdate :: h, q => written cell h q

end Verif.Single
