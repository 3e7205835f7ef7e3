import Verif.Spec.ObjectGrid

/-!
Model of `DenseGrid2D`, sequential variant (src/engine/fields/dense_object_grid_2d.rs:175-779).

Simplifications: objects are compared by their own `==` (`PartialEq`), of which
nothing is assumed here, with its two sides taken in either order; `i32` overflow (see `DenseI32`) and `RefCell` borrow failures (see `Borrows`) are
not modelled. `locs[read]` and `locs[write]` are the fields `rlocs` and `locs`. `none` is a panic.
-/

namespace Verif.DenseObject

open Grid

/-- `DenseGrid2D` (src/engine/fields/dense_object_grid_2d.rs:179-192). -/
structure OGrid (O : Type) where
  rlocs : List (List O)
  locs : List (List O)
  width : Int
  height : Int
  deriving DecidableEq

variable {O : Type} [BEq O]

/-- `new` (src/engine/fields/dense_object_grid_2d.rs:201-216). A negative `width * height` cast to `usize`
makes the allocation panic. -/
def new (width height : Int) : Option (OGrid O) :=
  if width * height < 0 then none
  else some
    { rlocs := List.replicate (width * height).toNat []
      locs := List.replicate (width * height).toNat []
      width := width.natAbs
      height := height.natAbs }

/-- `calculate_indexes_bag` (src/engine/fields/dense_object_grid_2d.rs:768-779). -/
def calculateIndexesBag (index : Nat) (width height : Int) : Option Loc :=
  ((List.range height.toNat).find? (fun i : Nat => decide ((index : Int) < width * i + width ∧ (index : Int) ≥ width * i))).map
    (fun (i : Nat) => (⟨(index : Int) - width * i, i⟩ : Loc))

/-- READ (src/engine/fields/dense_object_grid_2d.rs:264-277), from index `i` on. -/
def applyRead (f : Loc → O → Option O) (w h : Int) : Nat → List (List O) → Option (List (List O))
  | _, [] => some []
  | i, r :: rs =>
    match calculateIndexesBag i w h with
    | none => none
    | some id => (applyRead f w h (i + 1) rs).map (fun t => r.filterMap (f id) :: t)

/-- WRITE (src/engine/fields/dense_object_grid_2d.rs:279-292), from index `i` on. -/
def applyWrite (f : Loc → O → Option O) (w h : Int) : Nat → List (List O) → List (List O) → Option (List (List O))
  | _, [], locs => some locs
  | i, r :: rs, locs =>
    match calculateIndexesBag i w h with
    | none => none
    | some id =>
      match locs with
      | [] => if (r.filterMap (f id)).isEmpty then applyWrite f w h (i + 1) rs [] else none
      | b :: bs => (applyWrite f w h (i + 1) rs bs).map (fun t => (b ++ r.filterMap (f id)) :: t)

/-- One published object under READWRITE: its image is pushed unless already there
(src/engine/fields/dense_object_grid_2d.rs:315-322). -/
def pushNew (f : O → Option O) (b : List O) (elem : O) : List O :=
  match f elem with
  | some x => if b.contains x then b else b ++ [x]
  | none => b

/-- The write bag of one cell after READWRITE (src/engine/fields/dense_object_grid_2d.rs:302-325). -/
def applyRWBag (f : O → Option O) (b r : List O) : List O :=
  if b.isEmpty then
    r.foldl (pushNew f) []
  else b.map (fun elem => (f elem).getD elem)

/-- READWRITE (src/engine/fields/dense_object_grid_2d.rs:294-327), from index `i` on. -/
def applyReadWrite (f : Loc → O → Option O) (w h : Int) :
    Nat → List (List O) → List (List O) → Option (List (List O))
  | _, [], locs => some locs
  | i, r :: rs, locs =>
    match calculateIndexesBag i w h with
    | none => none
    | some id =>
      match locs with
      | [] => none
      | b :: bs => (applyReadWrite f w h (i + 1) rs bs).map (fun t => applyRWBag (f id) b r :: t)

/-- `apply_to_all_values` (src/engine/fields/dense_object_grid_2d.rs:258-329). -/
def applyToAllValues (g : OGrid O) (f : Loc → O → Option O) : GridOption → Option (OGrid O)
  | .READ => (applyRead f g.width g.height 0 g.rlocs).map (fun v => { g with rlocs := v })
  | .WRITE => (applyWrite f g.width g.height 0 g.rlocs g.locs).map (fun v => { g with locs := v })
  | .READWRITE => (applyReadWrite f g.width g.height 0 g.rlocs g.locs).map (fun v => { g with locs := v })

/-- `get_empty_bags` (src/engine/fields/dense_object_grid_2d.rs:358-369). -/
def getEmptyBags (g : OGrid O) : Option (List Loc) :=
  collect g.rlocs g.height (fun c e => if e.isEmpty then [c] else []) (cells g.width g.height)

/-- `get_random_empty_bag` (src/engine/fields/dense_object_grid_2d.rs:391-402); `genRange n` is the draw of
`rng.gen_range(0..n)`. -/
def getRandomEmptyBag (g : OGrid O) (genRange : Nat → Nat) : Option (Option Loc) :=
  match getEmptyBags g with
  | none => none
  | some [] => some none
  | some (b :: bs) =>
    match (b :: bs)[genRange (b :: bs).length]? with
    | none => none
    | some l => some (some l)

/-- `get_location` (src/engine/fields/dense_object_grid_2d.rs:429-441). -/
def getLocation (g : OGrid O) (object : O) : Option (Option Loc) :=
  findCell g.rlocs g.height (fun e => e.contains object) (cells g.width g.height)

/-- `get_location_unbuffered` (src/engine/fields/dense_object_grid_2d.rs:471-482). -/
def getLocationUnbuffered (g : OGrid O) (object : O) : Option (Option Loc) :=
  findCell g.locs g.height (fun e => e.contains object) (cells g.width g.height)

/-- The answer of `get_objects` for a bag: `None` when it is empty (src/engine/fields/dense_object_grid_2d.rs:507-518). -/
def bagAnswer (b : List O) : Option (List O) := if b.isEmpty then none else some b

/-- `get_objects` (src/engine/fields/dense_object_grid_2d.rs:507-521). -/
def getObjects (g : OGrid O) (loc : Loc) : Option (Option (List O)) :=
  (vecGet g.rlocs g.height loc).map bagAnswer

/-- `get_objects_unbuffered` (src/engine/fields/dense_object_grid_2d.rs:547-562). -/
def getObjectsUnbuffered (g : OGrid O) (loc : Loc) : Option (Option (List O)) :=
  (vecGet g.locs g.height loc).map bagAnswer

/-- The calls `iter_objects` makes to its closure, in order (src/engine/fields/dense_object_grid_2d.rs:589-608). -/
def iterObjects (g : OGrid O) : Option (List (Loc × O)) :=
  collect g.rlocs g.height (fun c e => e.map (fun o => (c, o))) (cells g.width g.height)

/-- The calls of `iter_objects_unbuffered` (src/engine/fields/dense_object_grid_2d.rs:634-654). -/
def iterObjectsUnbuffered (g : OGrid O) : Option (List (Loc × O)) :=
  collect g.locs g.height (fun c e => e.map (fun o => (c, o))) (cells g.width g.height)

/-- `set_object_location` (src/engine/fields/dense_object_grid_2d.rs:688-697). -/
def setObjectLocation (g : OGrid O) (object : O) (loc : Loc) : Option (OGrid O) :=
  match vecGet g.locs g.height loc with
  | none => none
  | some b =>
    (vecSet g.locs g.height loc (b.filter (fun o => o != object) ++ [object])).map (fun v => { g with locs := v })

/-- `remove_object_location` (src/engine/fields/dense_object_grid_2d.rs:729-736). -/
def removeObjectLocation (g : OGrid O) (object : O) (loc : Loc) : Option (OGrid O) :=
  match vecGet g.locs g.height loc with
  | none => none
  | some b =>
    (vecSet g.locs g.height loc (b.filter (fun o => o != object))).map (fun v => { g with locs := v })

/-- `lazy_update` (src/engine/fields/dense_object_grid_2d.rs:743-750). -/
def lazyUpdate (g : OGrid O) : OGrid O :=
  { g with rlocs := g.locs, locs := g.rlocs.map (fun _ => []) }

/-- `r.insert(index, b)` on a vector: shifts the rest, panics if `index > len` (src/engine/fields/dense_object_grid_2d.rs:753-770). -/
def vecInsert (r : List (List O)) (index : Nat) (b : List O) : Option (List (List O)) :=
  if index ≤ r.length then some (r.take index ++ b :: r.drop index) else none

/-- One iteration of `update` (src/engine/fields/dense_object_grid_2d.rs:756-759). -/
def updateCell (g : OGrid O) (r : List (List O)) (c : Loc) : Option (List (List O)) :=
  match vecGet g.locs g.height c with
  | none => none
  | some b => vecInsert r (c.x * g.height + c.y).toNat b

/-- `update` (src/engine/fields/dense_object_grid_2d.rs:753-762): `Vec::insert` in every cell. -/
def update (g : OGrid O) : Option (OGrid O) :=
  ((cells g.width g.height).foldlM (updateCell g) g.rlocs).map (fun v => { g with rlocs := v })

/-- One call (the methods of src/engine/fields/dense_object_grid_2d.rs:258-770). -/
def exec (g : OGrid O) : ObjOp O → Option (OGrid O)
  | .place o l => setObjectLocation g o l
  | .remove o l => removeObjectLocation g o l
  | .update => update g
  | .lazyUpdate => some (lazyUpdate g)
  | .apply f o => applyToAllValues g f o

/-- A program on a grid; the calls are listed newest first (the methods of src/engine/fields/dense_object_grid_2d.rs:258-770). -/
def run (g : OGrid O) : List (ObjOp O) → Option (OGrid O)
  | [] => some g
  | op :: before => (run g before).bind (fun g' => exec g' op)

end Verif.DenseObject
