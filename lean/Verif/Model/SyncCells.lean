import Verif.Model.Synchronous
import Verif.Model.DenseNumberGrid
import Verif.Model.SparseNumberGrid

/-!
Model of the cellular automata on number grids, as in `Verif.Model.Synchronous`: every agent has a cell and a value; in its step it
looks with `get_value` at some cells, decides, and writes its new value with `set_value_location` into its cell unless it dies; the
state publishes the grid with `lazy_update` (`fast`) or with `update`.
-/

namespace Verif.Sync

open Grid (Loc)

variable {B T : Type}

/-- The calls of such an agent on a `DenseNumberGrid2D` (src/engine/fields/dense_number_grid_2d.rs:350-354, 492-501, 537-561). -/
def denseCellOps (fast : Bool) (loc : B → Loc) (val : B → T) (nbh : B → List Loc) : FieldOps (DenseNumber.DGrid T) B (List (Option T)) :=
  { look := fun g b => (nbh b).mapM (DenseNumber.getValue g)
    place := fun g b => DenseNumber.setValueLocation g (val b) (loc b)
    publish := fun g => some (if fast then DenseNumber.lazyUpdate g else DenseNumber.update g) }

/-- The same on a `SparseNumberGrid2D` (src/engine/fields/sparse_number_grid_2d.rs:404-407, 453-456, 489-502). -/
def sparseCellOps (fast : Bool) (loc : B → Loc) (val : B → T) (nbh : B → List Loc) :
    FieldOps (SparseNumber.SGrid T) B (List (Option T)) :=
  { look := fun g b => some ((nbh b).map (SparseNumber.getValue g))
    place := fun g b => some (SparseNumber.setValueLocation g (val b) (loc b))
    publish := fun g => some (if fast then SparseNumber.lazyUpdate g else SparseNumber.update g) }

/-- The same on either grid with the feature `parallel` (src/engine/fields/dense_number_grid_2d.rs:51-78,
src/engine/fields/sparse_number_grid_2d.rs:51-77). -/
def parCellOps (fast : Bool) (loc : B → Loc) (val : B → T) (nbh : B → List Loc) : FieldOps (ParGrid.NGrid T) B (List (Option T)) :=
  { look := fun g b => (nbh b).mapM g.getValue
    place := fun g b => g.setValueLocation (val b) (loc b)
    publish := fun g => some (if fast then g.lazyUpdate else g.update) }

end Verif.Sync
