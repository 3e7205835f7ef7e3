import Verif.Spec.ObjectGrid
import Verif.Model.HashMap

/-!
Model of `SparseGrid2D`, sequential variant (src/engine/fields/sparse_object_grid_2d.rs:203-722).

Simplifications: as for the other grids. `none` is a panic.
-/

namespace Verif.SparseObject

open Grid

/-- `SparseGrid2D` (src/engine/fields/sparse_object_grid_2d.rs:205-216). -/
structure BGrid (O : Type) where
  rlocs : HMap Loc (List O)
  locs : HMap Loc (List O)
  width : Int
  height : Int
  deriving DecidableEq

variable {O : Type} [BEq O]

/-- `new` (src/engine/fields/sparse_object_grid_2d.rs:224-234). -/
def new (width height : Int) : BGrid O := { rlocs := [], locs := [], width := width, height := height }

/-- Applies the closure to every object of a bag; `None` makes `expect` panic
(src/engine/fields/sparse_object_grid_2d.rs:286-288). -/
def applyBag (f : O → Option O) : List O → Option (List O)
  | [] => some []
  | o :: os =>
    match f o with
    | none => none
    | some x => (applyBag f os).map (fun t => x :: t)

/-- READ and WRITE, on one map (src/engine/fields/sparse_object_grid_2d.rs:283-298). -/
def applyMap (f : Loc → O → Option O) : HMap Loc (List O) → Option (HMap Loc (List O))
  | [] => some []
  | e :: es =>
    match applyBag (f e.1) e.2 with
    | none => none
    | some b => (applyMap f es).map (fun t => (e.1, b) :: t)

/-- The inner loop of READWRITE for a missing write bag: every object inserts a bag of its own under the
same key (src/engine/fields/sparse_object_grid_2d.rs:312-315). -/
def insertEach (f : O → Option O) (key : Loc) (locs : HMap Loc (List O)) : List O → Option (HMap Loc (List O))
  | [] => some locs
  | o :: os =>
    match f o with
    | none => none
    | some x => insertEach f key (HMap.insert locs key [x]).1 os

/-- READWRITE (src/engine/fields/sparse_object_grid_2d.rs:301-319), one published entry. -/
def applyRWEntry (f : Loc → O → Option O) (locs : HMap Loc (List O)) (e : Loc × List O) :
    Option (HMap Loc (List O)) :=
  match HMap.get locs e.1 with
  | some b => (applyBag (f e.1) b).map (fun b' => HMap.adjust locs e.1 (fun _ => b'))
  | none => insertEach (f e.1) e.1 locs e.2

/-- `apply_to_all_values` (src/engine/fields/sparse_object_grid_2d.rs:278-320). -/
def applyToAllValues (g : BGrid O) (f : Loc → O → Option O) : GridOption → Option (BGrid O)
  | .READ => (applyMap f g.rlocs).map (fun m => { g with rlocs := m })
  | .WRITE => (applyMap f g.locs).map (fun m => { g with locs := m })
  | .READWRITE => (g.rlocs.foldlM (applyRWEntry f) g.locs).map (fun m => { g with locs := m })

/-- `get_location` (src/engine/fields/sparse_object_grid_2d.rs:346-356). -/
def getLocation (g : BGrid O) (object : O) : Option Loc :=
  (g.rlocs.find? (fun e => e.2.contains object)).map Prod.fst

/-- `get_location_unbuffered` (src/engine/fields/sparse_object_grid_2d.rs:386-396). -/
def getLocationUnbuffered (g : BGrid O) (object : O) : Option Loc :=
  (g.locs.find? (fun e => e.2.contains object)).map Prod.fst

/-- `get_objects` (src/engine/fields/sparse_object_grid_2d.rs:421-423). -/
def getObjects (g : BGrid O) (loc : Loc) : Option (List O) := HMap.get g.rlocs loc

/-- `get_objects_unbuffered` (src/engine/fields/sparse_object_grid_2d.rs:450-452). -/
def getObjectsUnbuffered (g : BGrid O) (loc : Loc) : Option (List O) := HMap.get g.locs loc

/-- `get_empty_bags` (src/engine/fields/sparse_object_grid_2d.rs:482-500). -/
def getEmptyBags (g : BGrid O) : List Loc :=
  (cells g.width g.height).filter (fun c =>
    match HMap.get g.rlocs c with
    | some bag => bag.isEmpty
    | none => true)

/-- The loop of `get_random_empty_bag` (src/engine/fields/sparse_object_grid_2d.rs:525-533). -/
def randomLoop (rlocs : HMap Loc (List O)) : (draws : List Loc) → Draw
  | [] => .looping
  | d :: ds =>
    match HMap.get rlocs d with
    | some _ => randomLoop rlocs ds
    | none => .returned (some d)

/-- `get_random_empty_bag` (src/engine/fields/sparse_object_grid_2d.rs:523-534); `draws` are the first
locations the generator yields. -/
def getRandomEmptyBag (g : BGrid O) (draws : List Loc) : Draw :=
  if g.width ≤ 0 ∨ g.height ≤ 0 then .panic else randomLoop g.rlocs draws

/-- The calls of `iter_objects` (src/engine/fields/sparse_object_grid_2d.rs:561-574). -/
def iterObjects (g : BGrid O) : List (Loc × O) := g.rlocs.flatMap (fun e => e.2.map (fun o => (e.1, o)))

/-- The calls of `iter_objects_unbuffered` (src/engine/fields/sparse_object_grid_2d.rs:601-614). -/
def iterObjectsUnbuffered (g : BGrid O) : List (Loc × O) := g.locs.flatMap (fun e => e.2.map (fun o => (e.1, o)))

/-- `set_object_location` (src/engine/fields/sparse_object_grid_2d.rs:648-658). -/
def setObjectLocation (g : BGrid O) (object : O) (loc : Loc) : BGrid O :=
  match HMap.get g.locs loc with
  | some _ => { g with locs := HMap.adjust g.locs loc (fun bag => bag ++ [object]) }
  | none => { g with locs := (HMap.insert g.locs loc [object]).1 }

/-- `remove_object_location` (src/engine/fields/sparse_object_grid_2d.rs:690-699). -/
def removeObjectLocation (g : BGrid O) (object : O) (loc : Loc) : BGrid O :=
  match HMap.get g.locs loc with
  | none => g
  | some bag =>
    if (bag.filter (fun o => o != object)).isEmpty then { g with locs := (HMap.remove g.locs loc).1 }
    else { g with locs := HMap.adjust g.locs loc (fun bag => bag.filter (fun o => o != object)) }

/-- `lazy_update` (src/engine/fields/sparse_object_grid_2d.rs:705-708). -/
def lazyUpdate (g : BGrid O) : BGrid O := { g with rlocs := g.locs, locs := [] }

/-- `update` (src/engine/fields/sparse_object_grid_2d.rs:711-718). -/
def update (g : BGrid O) : BGrid O :=
  { g with rlocs := g.locs.foldl (fun m e => (HMap.insert m e.1 e.2).1) [], locs := [] }

/-- One call (the methods of src/engine/fields/sparse_object_grid_2d.rs:278-720). -/
def exec (g : BGrid O) : ObjOp O → Option (BGrid O)
  | .place o l => some (setObjectLocation g o l)
  | .remove o l => some (removeObjectLocation g o l)
  | .update => some (update g)
  | .lazyUpdate => some (lazyUpdate g)
  | .apply f o => applyToAllValues g f o

/-- A program on a grid; the calls are listed newest first (the methods of src/engine/fields/sparse_object_grid_2d.rs:278-720). -/
def run (g : BGrid O) : List (ObjOp O) → Option (BGrid O)
  | [] => some g
  | op :: before => (run g before).bind (fun g' => exec g' op)

end Verif.SparseObject
