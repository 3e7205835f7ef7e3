import Verif.Model.SyncCells
import Verif.Spec.SyncNodes

/-!
Specification of a cellular automaton: the value of a cell is that of the agent whose cell it is.
-/

namespace Verif.Sync

open Grid (Loc)

variable {B T F : Type}

/-- The value of a cell: that of the agent whose cell it is, if there is exactly one. -/
def valueAt (loc : B → Loc) (val : B → T) (pop : List B) (l : Loc) : Option T :=
  match pop.filter (fun b => decide (loc b = l)) with
  | [b] => some (val b)
  | _ => none

/-- What an agent sees: the values of the cells it looks at. -/
def cellView (loc : B → Loc) (val : B → T) (nbh : B → List Loc) (pop : List B) (b : B) : List (Option T) :=
  (nbh b).map (valueAt loc val pop)

/-- A grid shows a population: `get_value` gives at every location inside the value of the cell. -/
def CellsShow (get : F → Loc → Option (Option T)) (loc : B → Loc) (val : B → T) (inside : Loc → Prop) (g : F) (pop : List B) : Prop :=
  ∀ l, inside l → get g l = some (valueAt loc val pop l)

end Verif.Sync
