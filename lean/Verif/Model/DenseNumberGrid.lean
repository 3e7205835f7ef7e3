import Verif.Spec.Grid

/-!
Model of `DenseNumberGrid2D`, sequential variant (src/engine/fields/dense_number_grid_2d.rs:81-565).

Simplifications: values are compared by their own `==` (`PartialEq`, so a NaN may differ from itself); `i32` overflow is not modelled here (see `DenseI32`);
`RefCell` borrow failures (a closure that calls the grid again) are not modelled. The two vectors
`locs[read]` and `locs[write]` are the fields `rlocs` and `locs`; swapping the indices swaps the fields.
`none` is a panic.
-/

namespace Verif.DenseNumber

open Grid

/-- `DenseNumberGrid2D` (src/engine/fields/dense_number_grid_2d.rs:90-104). -/
structure DGrid (T : Type) where
  rlocs : List (Option T)
  locs : List (Option T)
  width : Int
  height : Int

variable {T : Type}

/-- `new` (src/engine/fields/dense_number_grid_2d.rs:112-126). A negative `width * height` cast to `usize`
makes the allocation panic. -/
def new (width height : Int) : Option (DGrid T) :=
  if width * height < 0 then none
  else some
    { rlocs := List.replicate (width * height).toNat none
      locs := List.replicate (width * height).toNat none
      width := width.natAbs
      height := height.natAbs }

/-- One cell of the READWRITE case (src/engine/fields/dense_number_grid_2d.rs:184-191). -/
def applyRW (closure : T → T) (w r : Option T) : Option T :=
  match w with
  | some v => some (closure v)
  | none =>
    match r with
    | some v => some (closure v)
    | none => none

/-- One cell of the WRITE case (src/engine/fields/dense_number_grid_2d.rs:172-176). -/
def applyW (closure : T → T) (w r : Option T) : Option T :=
  match r with
  | none => w
  | some v => some (closure v)

/-- `apply_to_all_values` (src/engine/fields/dense_number_grid_2d.rs:155-195). The loops visit index `i` of
both vectors (which have the same length) in iteration `i`, so they are written as zips. -/
def applyToAllValues (g : DGrid T) (closure : T → T) : GridOption → DGrid T
  | .READ => { g with rlocs := g.rlocs.map (fun v => v.map closure) }
  | .WRITE => { g with locs := List.zipWith (applyW closure) g.locs g.rlocs }
  | .READWRITE => { g with locs := List.zipWith (applyRW closure) g.locs g.rlocs }

/-- `get_location` (src/engine/fields/dense_number_grid_2d.rs:217-229). -/
def getLocation [BEq T] (g : DGrid T) (value : T) : Option (Option Loc) :=
  findCell g.rlocs g.height (fun e => e == some value) (cells g.width g.height)

/-- `get_location_unbuffered` (src/engine/fields/dense_number_grid_2d.rs:255-266). -/
def getLocationUnbuffered [BEq T] (g : DGrid T) (value : T) : Option (Option Loc) :=
  findCell g.locs g.height (fun e => e == some value) (cells g.width g.height)

/-- `get_empty_bags` (src/engine/fields/dense_number_grid_2d.rs:290-301). -/
def getEmptyBags (g : DGrid T) : Option (List Loc) :=
  collect g.rlocs g.height (fun c e => if e.isNone then [c] else []) (cells g.width g.height)

/-- `get_random_empty_bag` (src/engine/fields/dense_number_grid_2d.rs:319-329); `genRange n` is the draw
of `rng.gen_range(0..n)`. -/
def getRandomEmptyBag (g : DGrid T) (genRange : Nat → Nat) : Option (Option Loc) :=
  match getEmptyBags g with
  | none => none
  | some [] => some none
  | some (b :: bs) =>
    match (b :: bs)[genRange (b :: bs).length]? with
    | none => none
    | some l => some (some l)

/-- `get_value` (src/engine/fields/dense_number_grid_2d.rs:350-354). -/
def getValue (g : DGrid T) (loc : Loc) : Option (Option T) := vecGet g.rlocs g.height loc

/-- `get_value_unbuffered` (src/engine/fields/dense_number_grid_2d.rs:376-380). -/
def getValueUnbuffered (g : DGrid T) (loc : Loc) : Option (Option T) := vecGet g.locs g.height loc

/-- The calls `iter_values` makes to its closure, in order (src/engine/fields/dense_number_grid_2d.rs:404-425). -/
def iterValues (g : DGrid T) : Option (List (Loc × T)) :=
  collect g.rlocs g.height (fun c e => match e with | some v => [(c, v)] | none => []) (cells g.width g.height)

/-- The calls of `iter_values_unbuffered` (src/engine/fields/dense_number_grid_2d.rs:449-470). -/
def iterValuesUnbuffered (g : DGrid T) : Option (List (Loc × T)) :=
  collect g.locs g.height (fun c e => match e with | some v => [(c, v)] | none => []) (cells g.width g.height)

/-- `set_value_location` (src/engine/fields/dense_number_grid_2d.rs:492-501). -/
def setValueLocation (g : DGrid T) (value : T) (loc : Loc) : Option (DGrid T) :=
  (vecSet g.locs g.height loc (some value)).map (fun v => { g with locs := v })

/-- `remove_value_location` (src/engine/fields/dense_number_grid_2d.rs:526-530). -/
def removeValueLocation (g : DGrid T) (loc : Loc) : Option (DGrid T) :=
  (vecSet g.locs g.height loc none).map (fun v => { g with locs := v })

/-- `lazy_update` (src/engine/fields/dense_number_grid_2d.rs:537-551): swap, then set every write cell to `None`. -/
def lazyUpdate (g : DGrid T) : DGrid T :=
  { g with rlocs := g.locs, locs := g.rlocs.map (fun _ => none) }

/-- `update` (src/engine/fields/dense_number_grid_2d.rs:553-561): copy cell by cell, clearing the write cell. -/
def update (g : DGrid T) : DGrid T :=
  { g with rlocs := List.zipWith (fun w _ => w) g.locs g.rlocs, locs := g.locs.map (fun _ => none) }

/-- One call (the methods of src/engine/fields/dense_number_grid_2d.rs:155-560). -/
def exec (g : DGrid T) : NumOp T → Option (DGrid T)
  | .set v l => setValueLocation g v l
  | .remove l => removeValueLocation g l
  | .update => some (update g)
  | .lazyUpdate => some (lazyUpdate g)
  | .apply f o => some (applyToAllValues g f o)

/-- A program on a grid; the calls are listed newest first (the methods of src/engine/fields/dense_number_grid_2d.rs:155-560). -/
def run (g : DGrid T) : List (NumOp T) → Option (DGrid T)
  | [] => some g
  | op :: before => (run g before).bind (fun g' => exec g' op)

end Verif.DenseNumber
