import Verif.Model.Field2D

/-!
Specification of the continuous field: histories of placements (calls listed newest first) and distances,
stated without the storage.
-/

namespace Verif.Field2D

open Torus

variable {O : Type} [BEq O]

/-- A position of the field, borders included. -/
def InField (w h : Rat) (p : Pos) : Prop := 0 ≤ p.x ∧ p.x ≤ w ∧ 0 ≤ p.y ∧ p.y ≤ h

/-- Two positions are in the same `d` by `d` square. -/
def SameSquare (d : Rat) (p q : Pos) : Prop :=
  ∃ i j : Int, (i * d ≤ p.x ∧ p.x < (i + 1) * d ∧ i * d ≤ q.x ∧ q.x < (i + 1) * d) ∧
    (j * d ≤ p.y ∧ p.y < (j + 1) * d ∧ j * d ≤ q.y ∧ q.y < (j + 1) * d)

/-- A test for `SameSquare` (`sameSquare_iff`). -/
def sameSquare (d : Rat) (p q : Pos) : Bool :=
  (p.x / d).floor == (q.x / d).floor && (p.y / d).floor == (q.y / d).floor

/-- The objects placed in the square of `q` since the last lazy_update and not removed, oldest first. -/
def objsWritten (d : Rat) : List (FieldOp O) → Pos → List O
  | [], _ => []
  | .place o l :: h, q => if sameSquare d l q then objsWritten d h q ++ [o] else objsWritten d h q
  | .remove o l :: h, q =>
    if sameSquare d l q then (objsWritten d h q).filter (fun x => x != o) else objsWritten d h q
  | .update :: h, q => objsWritten d h q
  | .lazyUpdate :: _, _ => []

/-- The objects that were in the square of `q` at the last lazy_update. -/
def objsPublished (d : Rat) : List (FieldOp O) → Pos → List O
  | [], _ => []
  | .place _ _ :: h, q => objsPublished d h q
  | .remove _ _ :: h, q => objsPublished d h q
  | .update :: h, q => objsPublished d h q
  | .lazyUpdate :: h, q => objsWritten d h q

/-- The location of the call is inside the field. -/
def FieldOp.InField (w h : Rat) : FieldOp O → Prop
  | .place _ l => Field2D.InField w h l
  | .remove _ l => Field2D.InField w h l
  | _ => True

instance (w h : Rat) (p : Pos) : Decidable (InField w h p) := by unfold InField; infer_instance

instance (w h : Rat) (op : FieldOp O) : Decidable (op.InField w h) := by
  cases op <;> unfold FieldOp.InField <;> infer_instance

/-- `p` and `q` are within distance `r`; on a torus, some image of `p` is. -/
def Within (tor : Bool) (w h : Rat) (p q : Pos) (r : Rat) : Prop :=
  if tor then
    ∃ k m : Int, (p.x - q.x + k * w) * (p.x - q.x + k * w) + (p.y - q.y + m * h) * (p.y - q.y + m * h) ≤ r * r
  else (p.x - q.x) * (p.x - q.x) + (p.y - q.y) * (p.y - q.y) ≤ r * r

end Verif.Field2D
