import Verif.Model.ParField2D
import Verif.Spec.Field2D

/-!
Specification of `Field2D` under the feature `parallel`: the placements of a history (newest first) and what a publication shows
of them.
-/

namespace Verif.ParField2DSpec

open Torus Field2D ParField2D

variable {O I : Type} [DecidableEq I]

/-- The placements since the latest `lazy_update`, oldest first. -/
def placements : List (ROp O) → List (O × Pos)
  | [] => []
  | .place o l :: h => placements h ++ [(o, l)]
  | .lazyUpdate :: _ => []
  | .update :: h => placements h

/-- The objects placed in the square of `q`, oldest first. -/
def placedIn (d : Rat) (ps : List (O × Pos)) (q : Pos) : List O := (ps.filter (fun p => sameSquare d p.2 q)).map Prod.fst

/-- What is published in the square of `q`. -/
def publishedIn (d : Rat) : List (ROp O) → Pos → List O
  | [], _ => []
  | .place _ _ :: h, q => publishedIn d h q
  | .lazyUpdate :: h, q => placedIn d (placements h) q
  | .update :: h, q => if placedIn d (placements h) q = [] then publishedIn d h q else placedIn d (placements h) q

/-- The latest placement of the object with this identity. -/
def latest (ident : O → I) (ps : List (O × Pos)) (i : I) : Option (O × Pos) :=
  ps.reverse.find? (fun p => decide (ident p.1 = i))

/-- The published placement of the object with this identity. -/
def publishedOf (ident : O → I) : List (ROp O) → I → Option (O × Pos)
  | [], _ => none
  | .place _ _ :: h, i => publishedOf ident h i
  | .lazyUpdate :: h, i => latest ident (placements h) i
  | .update :: h, i => (latest ident (placements h) i).or (publishedOf ident h i)

/-- The placements made in the period that the latest `lazy_update` published, oldest first. -/
def publishedPlacements : List (ROp O) → List (O × Pos)
  | [] => []
  | .lazyUpdate :: h => placements h
  | _ :: h => publishedPlacements h

/-- The call is a placement in the field or a `lazy_update`. -/
def PlaceLazy (w h : Rat) : ROp O → Prop
  | .place _ l => InField w h l
  | .lazyUpdate => True
  | .update => False

/-- The same call on the field without the feature. -/
def toSeq : ROp O → FieldOp O
  | .place o l => .place o l
  | .update => .update
  | .lazyUpdate => .lazyUpdate

end Verif.ParField2DSpec
