import Verif.Spec.Grid
import Verif.Model.HashMap

/-!
Model of `SparseNumberGrid2D`, sequential variant (src/engine/fields/sparse_number_grid_2d.rs:81-505).

Simplifications: as for the dense grid; the two hash maps are association lists (`HMap`) whose order is
the iteration order.
-/

namespace Verif.SparseNumber

open Grid

/-- `SparseNumberGrid2D` (src/engine/fields/sparse_number_grid_2d.rs:88-100). -/
structure SGrid (T : Type) where
  rlocs : HMap Loc T
  locs : HMap Loc T
  width : Int
  height : Int

variable {T : Type}

/-- `new` (src/engine/fields/sparse_number_grid_2d.rs:108-118). -/
def new (width height : Int) : SGrid T := { rlocs := [], locs := [], width := width, height := height }

/-- One published entry of the READWRITE case (src/engine/fields/sparse_number_grid_2d.rs:172-176). -/
def applyRW (closure : T → T) (locs : HMap Loc T) (e : Loc × T) : HMap Loc T :=
  match HMap.get locs e.1 with
  | some _ => HMap.adjust locs e.1 closure
  | none => (HMap.insert locs e.1 (closure e.2)).1

/-- `apply_to_all_values` (src/engine/fields/sparse_number_grid_2d.rs:147-181). -/
def applyToAllValues (g : SGrid T) (closure : T → T) : GridOption → SGrid T
  | .READ => { g with rlocs := g.rlocs.map (fun e => (e.1, closure e.2)) }
  | .WRITE => { g with locs := g.locs.map (fun e => (e.1, closure e.2)) }
  | .READWRITE => { g with locs := g.rlocs.foldl (applyRW closure) g.locs }

/-- The calls of `iter_values` (src/engine/fields/sparse_number_grid_2d.rs:204-215). -/
def iterValues (g : SGrid T) : List (Loc × T) := g.rlocs

/-- The calls of `iter_values_unbuffered` (src/engine/fields/sparse_number_grid_2d.rs:239-250). -/
def iterValuesUnbuffered (g : SGrid T) : List (Loc × T) := g.locs

/-- `get_empty_bags` (src/engine/fields/sparse_number_grid_2d.rs:275-289). -/
def getEmptyBags (g : SGrid T) : List Loc :=
  (cells g.width g.height).filter (fun c => (HMap.get g.rlocs c).isNone)

/-- The loop of `get_random_empty_bag` (src/engine/fields/sparse_number_grid_2d.rs:309-317) over the list of
locations drawn. -/
def randomLoop (rlocs : HMap Loc T) : (draws : List Loc) → Draw
  | [] => .looping
  | d :: ds =>
    match HMap.get rlocs d with
    | some _ => randomLoop rlocs ds
    | none => .returned (some d)

/-- `get_random_empty_bag` (src/engine/fields/sparse_number_grid_2d.rs:307-318); `draws` are the first
locations the generator yields. -/
def getRandomEmptyBag (g : SGrid T) (draws : List Loc) : Draw :=
  if g.width ≤ 0 ∨ g.height ≤ 0 then .panic else randomLoop g.rlocs draws

/-- `get_location` (src/engine/fields/sparse_number_grid_2d.rs:340-348). -/
def getLocation [BEq T] (g : SGrid T) (value : T) : Option Loc :=
  (g.rlocs.find? (fun e => e.2 == value)).map Prod.fst

/-- `get_location_unbuffered` (src/engine/fields/sparse_number_grid_2d.rs:374-382). -/
def getLocationUnbuffered [BEq T] (g : SGrid T) (value : T) : Option Loc :=
  (g.locs.find? (fun e => e.2 == value)).map Prod.fst

/-- `get_value` (src/engine/fields/sparse_number_grid_2d.rs:404-407). -/
def getValue (g : SGrid T) (loc : Loc) : Option T := HMap.get g.rlocs loc

/-- `get_value_unbuffered` (src/engine/fields/sparse_number_grid_2d.rs:429-432). -/
def getValueUnbuffered (g : SGrid T) (loc : Loc) : Option T := HMap.get g.locs loc

/-- `set_value_location` (src/engine/fields/sparse_number_grid_2d.rs:453-456). -/
def setValueLocation (g : SGrid T) (value : T) (loc : Loc) : SGrid T :=
  { g with locs := (HMap.insert g.locs loc value).1 }

/-- `remove_value_location` (src/engine/fields/sparse_number_grid_2d.rs:480-483). -/
def removeValueLocation (g : SGrid T) (loc : Loc) : SGrid T :=
  { g with locs := (HMap.remove g.locs loc).1 }

/-- `lazy_update` (src/engine/fields/sparse_number_grid_2d.rs:489-492). -/
def lazyUpdate (g : SGrid T) : SGrid T := { g with rlocs := g.locs, locs := [] }

/-- `update` (src/engine/fields/sparse_number_grid_2d.rs:495-502). -/
def update (g : SGrid T) : SGrid T :=
  { g with rlocs := g.locs.foldl (fun m e => (HMap.insert m e.1 e.2).1) [], locs := [] }

/-- One call (the methods of src/engine/fields/sparse_number_grid_2d.rs:147-500). -/
def exec (g : SGrid T) : NumOp T → SGrid T
  | .set v l => setValueLocation g v l
  | .remove l => removeValueLocation g l
  | .update => update g
  | .lazyUpdate => lazyUpdate g
  | .apply f o => applyToAllValues g f o

/-- A program on a grid; the calls are listed newest first (the methods of src/engine/fields/sparse_number_grid_2d.rs:147-500). -/
def run (g : SGrid T) : List (NumOp T) → SGrid T
  | [] => g
  | op :: before => exec (run g before) op

end Verif.SparseNumber
