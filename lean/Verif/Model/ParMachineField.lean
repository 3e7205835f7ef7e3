import Verif.Model.DBDashMap
import Verif.Model.MachineField
import Verif.Model.Synchronous

/-!
`Field2D` under the features `parallel` and `visualization` (src/engine/fields/field_2d.rs:27-266) with the machine arithmetic of the code: `f32` with infinities and NaN
(`Verif.Model.Machine`), saturating casts, `i32` and `usize` arithmetic that panics in a debug build and wraps around in a release build (`DenseI32.Mode`), and the capacity
asked of the allocator. `none` is a panic.

Simplifications: those of `DBDashMap`; memory is unbounded up to the `capacity overflow` panic of a vector. `Eq` and `Hash` of an object compare an identity `ident o` only.
`size` is the number of bytes of an object.
-/

namespace Verif.ParMachine

open Grid DBDashMap Machine
open DenseI32 (Mode)

variable {O I : Type} [DecidableEq I]

/-- `Field2D` (src/engine/fields/field_2d.rs:28-36). -/
structure PFieldF (O I : Type) where
  findex : DB I (O × Loc)
  fbag : DB Loc (List O)
  floc : DB I (O × PosF)
  width : F
  height : F
  discretization : F
  toroidal : Bool

/-- `new` (src/engine/fields/field_2d.rs:40-50). -/
def new (cpus : Nat) (hashO : I → Nat) (hashL : Loc → Nat) (w h d : F) (t : Bool) : PFieldF O I :=
  { findex := DBDashMap.new cpus hashO, fbag := DBDashMap.new cpus hashL, floc := DBDashMap.new cpus hashO, width := w,
    height := h, discretization := d, toroidal := t }

/-- `discretize` (src/engine/fields/field_2d.rs:52-63). -/
def cellOf (rnd : Rat → Rat) (f : PFieldF O I) (loc : PosF) : Loc :=
  ⟨toI32 (floor (div rnd loc.x f.discretization)), toI32 (floor (div rnd loc.y f.discretization))⟩

/-- `a * b` on `usize` (src/engine/fields/field_2d.rs:69). -/
def umul : Mode → Nat → Nat → Option Nat
  | .debug, a, b => if a * b < 2 ^ 64 then some (a * b) else none
  | .release, a, b => some (a * b % 2 ^ 64)

/-- The capacity of the answer: the division panics if nothing is published (src/engine/fields/field_2d.rs:67-69, 119-121). -/
def capacity (rnd : Rat → Rat) (m : Mode) (f : PFieldF O I) (dis : F) : Option Nat :=
  if rLen f.findex = 0 then none
  else umul m (toUsize (mul rnd f.width f.height) / rLen f.findex) (toUsize (mul rnd dis dis))

/-- `Vec::with_capacity` panics from `isize::MAX` bytes on (src/engine/fields/field_2d.rs:69, 121). -/
def reserve (size n : Nat) : Option Unit := if size * n < 2 ^ 63 then some () else none

/-- The pairs `(i, j)` of the search, in loop order (src/engine/fields/field_2d.rs:75-93, 127-145). -/
def searchCells (rnd : Rat → Rat) (m : Mode) (f : PFieldF O I) (loc : PosF) (dis : F) : Option (List Loc) :=
  match window m f.toroidal (cellOf rnd f loc).x (toI32 (floor (div rnd dis f.discretization))) (toI32 (ceil (div rnd f.width f.discretization))),
    window m f.toroidal (cellOf rnd f loc).y (toI32 (floor (div rnd dis f.discretization))) (toI32 (ceil (div rnd f.height f.discretization))) with
  | some wx, some wy => pairs m wx wy
  | _, _ => none

/-- `bag_id` (src/engine/fields/field_2d.rs:94-97, 146-149). -/
def bagId (rnd : Rat → Rat) (m : Mode) (f : PFieldF O I) (c : Loc) : Option Loc :=
  match tTransform m c.x (toI32 (ceil (div rnd f.width f.discretization))), tTransform m c.y (toI32 (ceil (div rnd f.height f.discretization))) with
  | some x, some y => some ⟨x, y⟩
  | _, _ => none

/-- The search loop (src/engine/fields/field_2d.rs:92-113, 144-159); a missing bag is skipped. -/
def scan (rnd : Rat → Rat) (m : Mode) (f : PFieldF O I) (keep : Loc → O → Bool) : List Loc → Option (List O)
  | [] => some []
  | c :: cs =>
    match bagId rnd m f c with
    | none => none
    | some b =>
      match getRead f.fbag b with
      | none => none
      | some none => scan rnd m f keep cs
      | some (some bag) => (scan rnd m f keep cs).map (fun r => bag.filter (keep b) ++ r)

/-- The test of the exact search (src/engine/fields/field_2d.rs:98-110). -/
def keepExact (rnd root : Rat → Rat) (f : PFieldF O I) (locOf : O → PosF) (loc : PosF) (dis : F) (b : Loc) (elem : O) : Bool :=
  decide (checkCircle rnd root b f.discretization f.width f.height loc dis f.toroidal = 0) &&
      le (dist rnd root loc (locOf elem) f.width f.height f.toroidal) dis ||
    decide (checkCircle rnd root b f.discretization f.width f.height loc dis f.toroidal = 1)

/-- `get_neighbors_within_distance` (src/engine/fields/field_2d.rs:65-115). -/
def getNeighborsWithinDistance (rnd root : Rat → Rat) (m : Mode) (size : Nat) (f : PFieldF O I) (locOf : O → PosF) (loc : PosF) (dis : F) :
    Option (List O) :=
  ((capacity rnd m f dis).bind (reserve size)).bind (fun _ =>
    if le dis (.fin 0) then some [] else (searchCells rnd m f loc dis).bind (scan rnd m f (keepExact rnd root f locOf loc dis)))

/-- `get_neighbors_within_relax_distance` (src/engine/fields/field_2d.rs:117-160). -/
def getNeighborsWithinRelaxDistance (rnd : Rat → Rat) (m : Mode) (size : Nat) (f : PFieldF O I) (loc : PosF) (dis : F) : Option (List O) :=
  ((capacity rnd m f dis).bind (reserve size)).bind (fun _ =>
    if le dis (.fin 0) then some [] else (searchCells rnd m f loc dis).bind (scan rnd m f (fun _ _ => true)))

/-- `get_objects` (src/engine/fields/field_2d.rs:173-186). -/
def getObjects (rnd : Rat → Rat) (f : PFieldF O I) (loc : PosF) : Option (List O) :=
  (getRead f.fbag (cellOf rnd f loc)).map (fun b => b.getD [])

/-- `get_location` (src/engine/fields/field_2d.rs:189-191). -/
def getLocation (f : PFieldF O I) (ident : O → I) (object : O) : Option (Option PosF) :=
  (getRead f.floc (ident object)).map (fun r => r.map Prod.snd)

/-- `num_objects_at_location` (src/engine/fields/field_2d.rs:225-233). -/
def numObjectsAtLocation (rnd : Rat → Rat) (f : PFieldF O I) (loc : PosF) : Option Nat :=
  (getRead f.fbag (cellOf rnd f loc)).map (fun b => (b.getD []).length)

/-- The last part of `set_object_location` (src/engine/fields/field_2d.rs:240-250). -/
def putInBag (f : PFieldF O I) (object : O) (bag : Loc) : Option (DB Loc (List O)) :=
  (getWrite f.fbag bag).bind (fun b =>
    match b with
    | some _ => modifyWrite f.fbag bag (fun v => v ++ [object])
    | none => (DBDashMap.insert f.fbag bag [object]).map Prod.fst)

/-- `set_object_location` (src/engine/fields/field_2d.rs:236-251). -/
def setObjectLocation (rnd : Rat → Rat) (ident : O → I) (f : PFieldF O I) (object : O) (loc : PosF) : Option (PFieldF O I) :=
  (DBDashMap.insert f.floc (ident object) (object, loc)).bind (fun l =>
    (DBDashMap.insert f.findex (ident object) (object, cellOf rnd f loc)).bind (fun i =>
      (putInBag f object (cellOf rnd f loc)).map (fun b => { f with floc := l.1, findex := i.1, fbag := b })))

/-- `update` (src/engine/fields/field_2d.rs:256-260). -/
def update (f : PFieldF O I) : PFieldF O I :=
  { f with floc := DBDashMap.update f.floc, fbag := DBDashMap.update f.fbag, findex := DBDashMap.update f.findex }

/-- `lazy_update` (src/engine/fields/field_2d.rs:261-265). -/
def lazyUpdate (f : PFieldF O I) : PFieldF O I :=
  { f with floc := DBDashMap.lazyUpdate f.floc, fbag := DBDashMap.lazyUpdate f.fbag, findex := DBDashMap.lazyUpdate f.findex }

/-- The calls that change a field (src/engine/fields/field_2d.rs:236-265). -/
inductive ROpF (O : Type) where
  | place (o : O) (l : PosF)
  | update
  | lazyUpdate

/-- One call (the methods of src/engine/fields/field_2d.rs:236-265). -/
def exec (rnd : Rat → Rat) (ident : O → I) (f : PFieldF O I) : ROpF O → Option (PFieldF O I)
  | .place o l => setObjectLocation rnd ident f o l
  | .update => some (update f)
  | .lazyUpdate => some (lazyUpdate f)

/-- A program; the calls are listed newest first (the methods of src/engine/fields/field_2d.rs:236-265). -/
def run (rnd : Rat → Rat) (ident : O → I) (f : PFieldF O I) : List (ROpF O) → Option (PFieldF O I)
  | [] => some f
  | op :: before => (run rnd ident f before).bind (fun f' => exec rnd ident f' op)

/-- The calls of agents on this field: they look as far as `reach` (tests/model/flockers/bird.rs:41, 151-153, tests/model/flockers/state.rs:59,
src/engine/fields/field_2d.rs:65-115, 236-265). -/
def agentOps (rnd root : Rat → Rat) (m : Mode) (size : Nat) (ident : O → I) (loc : O → PosF) (reach : O → F) : Sync.FieldOps (PFieldF O I) O (List O) where
  place f b := setObjectLocation rnd ident f b (loc b)
  publish f := some (lazyUpdate f)
  look f b := getNeighborsWithinDistance rnd root m size f loc (loc b) (reach b)

end Verif.ParMachine
