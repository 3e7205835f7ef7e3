import Verif.Model.Grid

/-!
Coordinates and distances of the continuous fields (src/engine/fields/field_2d.rs:926-1017; the same functions are repeated in src/engine/fields/kdtree_mpi.rs:885-976).

Simplification: `f32` values are exact rationals, so rounding, infinities and NaN are not modelled.
Distances are compared by their squares: the code compares `sqrt(s) <= dis` with `dis > 0` only.
-/

namespace Verif.Torus

open Grid

/-- `Real2D` (src/engine/location.rs:17-20). -/
structure Pos where
  x : Rat
  y : Rat
  deriving DecidableEq

/-- `t_transform` (src/engine/fields/field_2d.rs:926-932, src/engine/fields/kdtree_mpi.rs:885-891); `%` is the truncated remainder and panics on 0. -/
def tTransform (n size : Int) : Option Int :=
  if size = 0 then none else if n ≥ 0 then some (n.tmod size) else some (n.tmod size + size)

/-- `val % dim` on floats: the remainder of the division truncated toward zero (src/engine/fields/field_2d.rs:1004-1016, src/engine/fields/kdtree_mpi.rs:963-975). -/
def fmod (val dim : Rat) : Rat :=
  if 0 ≤ val / dim then val - dim * ((val / dim).floor : Int) else val - dim * ((val / dim).ceil : Int)

/-- `toroidal_transform` (src/engine/fields/field_2d.rs:1004-1016, src/engine/fields/kdtree_mpi.rs:963-975). -/
def toroidalTransform (val dim : Rat) : Rat :=
  if val ≥ 0 ∧ val < dim then val
  else if fmod val dim < 0 then fmod val dim + dim else fmod val dim

/-- `toroidal_distance` (src/engine/fields/field_2d.rs:988-1002, src/engine/fields/kdtree_mpi.rs:947-961); `(val1 - val2).abs() <= dim / 2` is written as
two inequalities. -/
def toroidalDistance (val1 val2 dim : Rat) : Rat :=
  if -(dim / 2) ≤ val1 - val2 ∧ val1 - val2 ≤ dim / 2 then val1 - val2
  else if (toroidalTransform val1 dim - toroidalTransform val2 dim) * 2 > dim then
    toroidalTransform val1 dim - toroidalTransform val2 dim - dim
  else if (toroidalTransform val1 dim - toroidalTransform val2 dim) * 2 < -dim then
    toroidalTransform val1 dim - toroidalTransform val2 dim + dim
  else toroidalTransform val1 dim - toroidalTransform val2 dim

/-- One coordinate of the difference in `distance` (src/engine/fields/field_2d.rs:978-984, src/engine/fields/kdtree_mpi.rs:937-943). -/
def diff (tor : Bool) (val1 val2 dim : Rat) : Rat := if tor then toroidalDistance val1 val2 dim else val1 - val2

/-- The square of `distance` (src/engine/fields/field_2d.rs:974-986, src/engine/fields/kdtree_mpi.rs:933-945). -/
def distSq (loc1 loc2 : Pos) (dim1 dim2 : Rat) (tor : Bool) : Rat :=
  diff tor loc1.x loc2.x dim1 * diff tor loc1.x loc2.x dim1 + diff tor loc1.y loc2.y dim2 * diff tor loc1.y loc2.y dim2

/-- The corner `nw` of a cell (src/engine/fields/field_2d.rs:943-946, src/engine/fields/kdtree_mpi.rs:902-905). -/
def cornerNW (bag : Loc) (d : Rat) : Pos := ⟨bag.x * d, bag.y * d⟩

/-- The corner `ne` (src/engine/fields/field_2d.rs:947-950, src/engine/fields/kdtree_mpi.rs:906-909). -/
def cornerNE (bag : Loc) (d height : Rat) : Pos := ⟨bag.x * d, min (bag.y * d + d) height⟩

/-- The corner `sw` (src/engine/fields/field_2d.rs:951-954, src/engine/fields/kdtree_mpi.rs:910-913). -/
def cornerSW (bag : Loc) (d width : Rat) : Pos := ⟨min (bag.x * d + d) width, bag.y * d⟩

/-- The corner `se` (src/engine/fields/field_2d.rs:955, src/engine/fields/kdtree_mpi.rs:914). -/
def cornerSE (bag : Loc) (d width height : Rat) : Pos := ⟨min (bag.x * d + d) width, min (bag.y * d + d) height⟩

/-- `check_circle` (src/engine/fields/field_2d.rs:934-972, src/engine/fields/kdtree_mpi.rs:893-931), called with `dis > 0`. -/
def checkCircle (bag : Loc) (d width height : Rat) (loc : Pos) (dis : Rat) (tor : Bool) : Int :=
  if distSq (cornerNW bag d) loc width height tor ≤ dis * dis ∧
      distSq (cornerNE bag d height) loc width height tor ≤ dis * dis ∧
      distSq (cornerSW bag d width) loc width height tor ≤ dis * dis ∧
      distSq (cornerSE bag d width height) loc width height tor ≤ dis * dis then 1
  else if distSq (cornerNW bag d) loc width height tor > dis * dis ∧
      distSq (cornerNE bag d height) loc width height tor > dis * dis ∧
      distSq (cornerSW bag d width) loc width height tor > dis * dis ∧
      distSq (cornerSE bag d width height) loc width height tor > dis * dis then -1
  else 0

end Verif.Torus
