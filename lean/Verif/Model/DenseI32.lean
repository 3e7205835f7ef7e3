import Verif.Model.DenseNumberGrid
import Verif.Model.DenseObjectGrid

/-!
The dense grids with the `i32` arithmetic of the code (src/engine/fields/dense_number_grid_2d.rs:90-565,
src/engine/fields/dense_object_grid_2d.rs:179-779). `Cargo.toml` has no profile of its own, so overflow panics in a debug
build and wraps around in a release build.

The methods that do no arithmetic (`lazy_update`, `update` and `apply_to_all_values` of the number grid) are those of
`Verif.Model.DenseNumberGrid`. `update` and `apply_to_all_values` of the object grid are left out.
-/

namespace Verif.DenseI32

open Grid

/-- The two ways Rust compiles `i32` arithmetic (/repo/Cargo.toml has no `[profile]`). -/
inductive Mode where
  | debug
  | release
deriving DecidableEq

/-- The result of an `i32` operation whose exact result is `z`; `none` is a panic (for instance
src/engine/fields/dense_number_grid_2d.rs:351). -/
def fit : Mode → Int → Option Int
  | .debug, z => if -2 ^ 31 ≤ z ∧ z < 2 ^ 31 then some z else none
  | .release, z => some ((z + 2 ^ 31) % 2 ^ 32 - 2 ^ 31)

/-- `(loc.x * height) + loc.y` (for instance src/engine/fields/dense_number_grid_2d.rs:351). -/
def index (m : Mode) (height : Int) (loc : Loc) : Option Int :=
  match fit m (loc.x * height) with
  | none => none
  | some a => fit m (a + loc.y)

/-- `v[((loc.x * height) + loc.y) as usize]` (for instance src/engine/fields/dense_number_grid_2d.rs:351-353). A
negative index becomes a huge `usize`, hence out of bounds. -/
def vecGet {α : Type} (m : Mode) (v : List α) (height : Int) (loc : Loc) : Option α :=
  match index m height loc with
  | none => none
  | some i => if 0 ≤ i then v[i.toNat]? else none

/-- `v[((loc.x * height) + loc.y) as usize] = a` (for instance
src/engine/fields/dense_number_grid_2d.rs:493-495). -/
def vecSet {α : Type} (m : Mode) (v : List α) (height : Int) (loc : Loc) (a : α) : Option (List α) :=
  match index m height loc with
  | none => none
  | some i => if 0 ≤ i ∧ i.toNat < v.length then some (v.set i.toNat a) else none

/-- As `Grid.findCell` (for instance src/engine/fields/dense_number_grid_2d.rs:217-228). -/
def findCell {α : Type} (m : Mode) (v : List α) (height : Int) (p : α → Bool) : List Loc → Option (Option Loc)
  | [] => some none
  | c :: cs =>
    match vecGet m v height c with
    | none => none
    | some e => if p e then some (some c) else findCell m v height p cs

/-- As `Grid.collect` (for instance src/engine/fields/dense_number_grid_2d.rs:290-301). -/
def collect {α β : Type} (m : Mode) (v : List α) (height : Int) (f : Loc → α → List β) :
    List Loc → Option (List β)
  | [] => some []
  | c :: cs =>
    match vecGet m v height c with
    | none => none
    | some e => (collect m v height f cs).map (fun r => f c e ++ r)

/-- The bags and sides a constructor makes: `(width * height) as usize`, `width.abs()`, `height.abs()`
(src/engine/fields/dense_number_grid_2d.rs:112-126, src/engine/fields/dense_object_grid_2d.rs:201-216). A negative
product makes the allocation panic. -/
def dims (m : Mode) (width height : Int) : Option (Nat × Int × Int) :=
  match fit m (width * height), fit m width.natAbs, fit m height.natAbs with
  | some n, some w, some h => if n < 0 then none else some (n.toNat, w, h)
  | _, _, _ => none

variable {T : Type}

/-- `DenseNumberGrid2D::new` (src/engine/fields/dense_number_grid_2d.rs:112-126). -/
def newNumber (m : Mode) (width height : Int) : Option (DenseNumber.DGrid T) :=
  (dims m width height).map fun d =>
    { rlocs := List.replicate d.1 none, locs := List.replicate d.1 none, width := d.2.1, height := d.2.2 }

/-- `get_location` (src/engine/fields/dense_number_grid_2d.rs:217-229). -/
def getLocation [BEq T] (m : Mode) (g : DenseNumber.DGrid T) (value : T) : Option (Option Loc) :=
  findCell m g.rlocs g.height (fun e => e == some value) (cells g.width g.height)

/-- `get_location_unbuffered` (src/engine/fields/dense_number_grid_2d.rs:255-266). -/
def getLocationUnbuffered [BEq T] (m : Mode) (g : DenseNumber.DGrid T) (value : T) : Option (Option Loc) :=
  findCell m g.locs g.height (fun e => e == some value) (cells g.width g.height)

/-- `get_empty_bags` (src/engine/fields/dense_number_grid_2d.rs:290-301). -/
def getEmptyBags (m : Mode) (g : DenseNumber.DGrid T) : Option (List Loc) :=
  collect m g.rlocs g.height (fun c e => if e.isNone then [c] else []) (cells g.width g.height)

/-- `get_value` (src/engine/fields/dense_number_grid_2d.rs:350-354). -/
def getValue (m : Mode) (g : DenseNumber.DGrid T) (loc : Loc) : Option (Option T) := vecGet m g.rlocs g.height loc

/-- `get_value_unbuffered` (src/engine/fields/dense_number_grid_2d.rs:376-380). -/
def getValueUnbuffered (m : Mode) (g : DenseNumber.DGrid T) (loc : Loc) : Option (Option T) :=
  vecGet m g.locs g.height loc

/-- `iter_values` (src/engine/fields/dense_number_grid_2d.rs:404-425). -/
def iterValues (m : Mode) (g : DenseNumber.DGrid T) : Option (List (Loc × T)) :=
  collect m g.rlocs g.height (fun c e => match e with | some v => [(c, v)] | none => []) (cells g.width g.height)

/-- `iter_values_unbuffered` (src/engine/fields/dense_number_grid_2d.rs:449-470). -/
def iterValuesUnbuffered (m : Mode) (g : DenseNumber.DGrid T) : Option (List (Loc × T)) :=
  collect m g.locs g.height (fun c e => match e with | some v => [(c, v)] | none => []) (cells g.width g.height)

/-- One call (src/engine/fields/dense_number_grid_2d.rs:155-560); writes at 492-501 and 526-530. -/
def execNumber (m : Mode) (g : DenseNumber.DGrid T) : NumOp T → Option (DenseNumber.DGrid T)
  | .set v l => (vecSet m g.locs g.height l (some v)).map (fun x => { g with locs := x })
  | .remove l => (vecSet m g.locs g.height l none).map (fun x => { g with locs := x })
  | .update => some (DenseNumber.update g)
  | .lazyUpdate => some (DenseNumber.lazyUpdate g)
  | .apply f o => some (DenseNumber.applyToAllValues g f o)

/-- A program on a grid; the calls are listed newest first (src/engine/fields/dense_number_grid_2d.rs:155-560). -/
def runNumber (m : Mode) (g : DenseNumber.DGrid T) : List (NumOp T) → Option (DenseNumber.DGrid T)
  | [] => some g
  | op :: before => (runNumber m g before).bind (fun g' => execNumber m g' op)

variable {O : Type} [BEq O]

/-- `DenseGrid2D::new` (src/engine/fields/dense_object_grid_2d.rs:201-216). -/
def newObject (m : Mode) (width height : Int) : Option (DenseObject.OGrid O) :=
  (dims m width height).map fun d =>
    { rlocs := List.replicate d.1 [], locs := List.replicate d.1 [], width := d.2.1, height := d.2.2 }

/-- `get_objects` (src/engine/fields/dense_object_grid_2d.rs:507-521). -/
def getObjects (m : Mode) (g : DenseObject.OGrid O) (loc : Loc) : Option (Option (List O)) :=
  (vecGet m g.rlocs g.height loc).map DenseObject.bagAnswer

/-- `get_objects_unbuffered` (src/engine/fields/dense_object_grid_2d.rs:547-562). -/
def getObjectsUnbuffered (m : Mode) (g : DenseObject.OGrid O) (loc : Loc) : Option (Option (List O)) :=
  (vecGet m g.locs g.height loc).map DenseObject.bagAnswer

/-- `set_object_location` (src/engine/fields/dense_object_grid_2d.rs:688-697). -/
def setObjectLocation (m : Mode) (g : DenseObject.OGrid O) (object : O) (loc : Loc) :
    Option (DenseObject.OGrid O) :=
  match vecGet m g.locs g.height loc with
  | none => none
  | some b =>
    (vecSet m g.locs g.height loc (b.filter (fun o => o != object) ++ [object])).map (fun v => { g with locs := v })

/-- `remove_object_location` (src/engine/fields/dense_object_grid_2d.rs:729-736). -/
def removeObjectLocation (m : Mode) (g : DenseObject.OGrid O) (object : O) (loc : Loc) :
    Option (DenseObject.OGrid O) :=
  match vecGet m g.locs g.height loc with
  | none => none
  | some b =>
    (vecSet m g.locs g.height loc (b.filter (fun o => o != object))).map (fun v => { g with locs := v })

/-- One call of `set_object_location`, `remove_object_location` or `lazy_update`
(src/engine/fields/dense_object_grid_2d.rs:688-750); the others are left out. -/
def execObject (m : Mode) (g : DenseObject.OGrid O) : ObjOp O → Option (DenseObject.OGrid O)
  | .place o l => setObjectLocation m g o l
  | .remove o l => removeObjectLocation m g o l
  | .lazyUpdate => some (DenseObject.lazyUpdate g)
  | .update => none
  | .apply _ _ => none

/-- A program on a grid; the calls are listed newest first (src/engine/fields/dense_object_grid_2d.rs:688-750). -/
def runObject (m : Mode) (g : DenseObject.OGrid O) : List (ObjOp O) → Option (DenseObject.OGrid O)
  | [] => some g
  | op :: before => (runObject m g before).bind (fun g' => execObject m g' op)

end Verif.DenseI32
