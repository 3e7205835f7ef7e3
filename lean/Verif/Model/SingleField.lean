import Verif.Model.Single
import Verif.Model.Field2D

/-!
The functions of src/engine/fields/field_2d.rs that compute with `f32`, in single precision: `rnd` is the rounding of every operation (`single` for the
hardware) and `root` the rounded square root. The remainder `%`, `floor`, `ceil`, `abs` and `min` of singles are exact.

Simplifications: infinities, NaN and -0 are not modelled; the casts to `i32` and `usize` do not saturate; `i32` overflow is not modelled. `none` is a panic.
-/

namespace Verif.Single

open Grid Torus
open Field2D (irange window FieldOp lazyUpdate)

/-- `toroidal_transform` (src/engine/fields/field_2d.rs:1004-1016). -/
def transform (rnd : Rat → Rat) (val dim : Rat) : Rat :=
  if val ≥ 0 ∧ val < dim then val
  else if fmod val dim < 0 then rnd (fmod val dim + dim) else fmod val dim

/-- The difference of the transformed values (src/engine/fields/field_2d.rs:993). -/
def apart (rnd : Rat → Rat) (val1 val2 dim : Rat) : Rat := rnd (transform rnd val1 dim - transform rnd val2 dim)

/-- `toroidal_distance` (src/engine/fields/field_2d.rs:988-1002). -/
def toroidalDist (rnd : Rat → Rat) (val1 val2 dim : Rat) : Rat :=
  if -rnd (dim / 2) ≤ rnd (val1 - val2) ∧ rnd (val1 - val2) ≤ rnd (dim / 2) then rnd (val1 - val2)
  else if rnd (apart rnd val1 val2 dim * 2) > dim then rnd (apart rnd val1 val2 dim - dim)
  else if rnd (apart rnd val1 val2 dim * 2) < -dim then rnd (apart rnd val1 val2 dim + dim)
  else apart rnd val1 val2 dim

/-- One coordinate of the difference in `distance` (src/engine/fields/field_2d.rs:978-984). -/
def coordDiff (rnd : Rat → Rat) (tor : Bool) (val1 val2 dim : Rat) : Rat :=
  if tor then toroidalDist rnd val1 val2 dim else rnd (val1 - val2)

/-- `distance` (src/engine/fields/field_2d.rs:974-986). -/
def dist (rnd root : Rat → Rat) (loc1 loc2 : Pos) (dim1 dim2 : Rat) (tor : Bool) : Rat :=
  root (rnd (rnd (coordDiff rnd tor loc1.x loc2.x dim1 * coordDiff rnd tor loc1.x loc2.x dim1) +
    rnd (coordDiff rnd tor loc1.y loc2.y dim2 * coordDiff rnd tor loc1.y loc2.y dim2)))

/-- The lower end of a cell along one axis (src/engine/fields/field_2d.rs:943-946). -/
def lowEnd (rnd : Rat → Rat) (i : Int) (d : Rat) : Rat := rnd (rnd i * d)

/-- The upper end of a cell along one axis (src/engine/fields/field_2d.rs:947-954). -/
def highEnd (rnd : Rat → Rat) (i : Int) (d dim : Rat) : Rat := min (rnd (lowEnd rnd i d + d)) dim

/-- `check_circle` (src/engine/fields/field_2d.rs:934-972). -/
def checkCircle (rnd root : Rat → Rat) (bag : Loc) (d width height : Rat) (loc : Pos) (dis : Rat) (tor : Bool) : Int :=
  if dist rnd root ⟨lowEnd rnd bag.x d, lowEnd rnd bag.y d⟩ loc width height tor ≤ dis ∧
      dist rnd root ⟨lowEnd rnd bag.x d, highEnd rnd bag.y d height⟩ loc width height tor ≤ dis ∧
      dist rnd root ⟨highEnd rnd bag.x d width, lowEnd rnd bag.y d⟩ loc width height tor ≤ dis ∧
      dist rnd root ⟨highEnd rnd bag.x d width, highEnd rnd bag.y d height⟩ loc width height tor ≤ dis then 1
  else if dist rnd root ⟨lowEnd rnd bag.x d, lowEnd rnd bag.y d⟩ loc width height tor > dis ∧
      dist rnd root ⟨lowEnd rnd bag.x d, highEnd rnd bag.y d height⟩ loc width height tor > dis ∧
      dist rnd root ⟨highEnd rnd bag.x d width, lowEnd rnd bag.y d⟩ loc width height tor > dis ∧
      dist rnd root ⟨highEnd rnd bag.x d width, highEnd rnd bag.y d height⟩ loc width height tor > dis then -1
  else 0

variable {O : Type} [BEq O]

/-- `(w/d).ceil()` (src/engine/fields/field_2d.rs:308-319, 396-397). -/
def cellsAlong (rnd : Rat → Rat) (w d : Rat) : Int := (rnd (w / d)).ceil

/-- The number of bags made by `new`: the product is computed in `f32` (src/engine/fields/field_2d.rs:308-309). -/
def bagsMade (rnd : Rat → Rat) (w h d : Rat) : Nat :=
  (rnd (rnd (cellsAlong rnd w d + 1) * rnd (cellsAlong rnd h d + 1))).floor.toNat

/-- `new` (src/engine/fields/field_2d.rs:304-324). -/
def new (rnd : Rat → Rat) (w h d : Rat) (t : Bool) : Field2D.Field O :=
  { rbags := List.replicate (bagsMade rnd w h d) []
    bags := List.replicate (bagsMade rnd w h d) []
    nagents := 0
    width := w
    height := h
    discretization := d
    toroidal := t
    dh := cellsAlong rnd h d + 1
    dw := cellsAlong rnd w d + 1
    density := 0
    densityCheck := false }

/-- `discretize` (src/engine/fields/field_2d.rs:328-339). -/
def discretize (rnd : Rat → Rat) (d : Rat) (loc : Pos) : Loc := ⟨(rnd (loc.x / d)).floor, (rnd (loc.y / d)).floor⟩

/-- `not_discretize` (src/engine/fields/field_2d.rs:345-354). -/
def notDiscretize (rnd : Rat → Rat) (d : Rat) (loc : Loc) : Pos := ⟨rnd (rnd loc.x * d), rnd (rnd loc.y * d)⟩

/-- The pairs `(i, j)` of the search, in loop order (src/engine/fields/field_2d.rs:394-417). -/
def searchCells (rnd : Rat → Rat) (f : Field2D.Field O) (loc : Pos) (dis : Rat) : List Loc :=
  (irange
      (window f.toroidal (discretize rnd f.discretization loc).x (rnd (dis / f.discretization)).floor
        (cellsAlong rnd f.width f.discretization)).1
      (window f.toroidal (discretize rnd f.discretization loc).x (rnd (dis / f.discretization)).floor
        (cellsAlong rnd f.width f.discretization)).2).flatMap (fun i =>
    (irange
      (window f.toroidal (discretize rnd f.discretization loc).y (rnd (dis / f.discretization)).floor
        (cellsAlong rnd f.height f.discretization)).1
      (window f.toroidal (discretize rnd f.discretization loc).y (rnd (dis / f.discretization)).floor
        (cellsAlong rnd f.height f.discretization)).2).map (fun j => ⟨i, j⟩))

/-- `bag_id` (src/engine/fields/field_2d.rs:418-421). -/
def bagId (rnd : Rat → Rat) (f : Field2D.Field O) (c : Loc) : Option Loc :=
  match tTransform c.x (cellsAlong rnd f.width f.discretization), tTransform c.y (cellsAlong rnd f.height f.discretization) with
  | some x, some y => some ⟨x, y⟩
  | _, _ => none

/-- The search loop (src/engine/fields/field_2d.rs:416-438). -/
def scan (rnd : Rat → Rat) (f : Field2D.Field O) (keep : Loc → O → Bool) : List Loc → Option (List O)
  | [] => some []
  | c :: cs =>
    match bagId rnd f c with
    | none => none
    | some b =>
      match vecGet f.rbags f.dh b with
      | none => none
      | some bag => (scan rnd f keep cs).map (fun r => bag.filter (keep b) ++ r)

/-- The test of the exact search (src/engine/fields/field_2d.rs:423-432). -/
def keepExact (rnd root : Rat → Rat) (f : Field2D.Field O) (locOf : O → Pos) (loc : Pos) (dis : Rat) (b : Loc) (elem : O) : Bool :=
  decide ((checkCircle rnd root b f.discretization f.width f.height loc dis f.toroidal = 0 ∧
      dist rnd root loc (locOf elem) f.width f.height f.toroidal ≤ dis) ∨
    checkCircle rnd root b f.discretization f.width f.height loc dis f.toroidal = 1)

/-- `get_neighbors_within_distance` (src/engine/fields/field_2d.rs:386-440). -/
def getNeighborsWithinDistance (rnd root : Rat → Rat) (f : Field2D.Field O) (locOf : O → Pos) (loc : Pos) (dis : Rat) : Option (List O) :=
  if dis ≤ 0 then some [] else scan rnd f (keepExact rnd root f locOf loc dis) (searchCells rnd f loc dis)

/-- `get_neighbors_within_relax_distance` (src/engine/fields/field_2d.rs:472-517). -/
def getNeighborsWithinRelaxDistance (rnd : Rat → Rat) (f : Field2D.Field O) (loc : Pos) (dis : Rat) : Option (List O) :=
  if dis ≤ 0 then some [] else scan rnd f (fun _ _ => true) (searchCells rnd f loc dis)

/-- `get_objects` (src/engine/fields/field_2d.rs:544-549). -/
def getObjects (rnd : Rat → Rat) (f : Field2D.Field O) (loc : Pos) : Option (List O) :=
  vecGet f.rbags f.dh (discretize rnd f.discretization loc)

/-- `get_objects_unbuffered` (src/engine/fields/field_2d.rs:577-582). -/
def getObjectsUnbuffered (rnd : Rat → Rat) (f : Field2D.Field O) (loc : Pos) : Option (List O) :=
  vecGet f.bags f.dh (discretize rnd f.discretization loc)

/-- `num_objects_at_location` (src/engine/fields/field_2d.rs:803-808). -/
def numObjectsAtLocation (rnd : Rat → Rat) (f : Field2D.Field O) (loc : Pos) : Option Nat :=
  (vecGet f.rbags f.dh (discretize rnd f.discretization loc)).map List.length

/-- The calls of `iter_objects` (src/engine/fields/field_2d.rs:619-639). -/
def iterObjects (rnd : Rat → Rat) (f : Field2D.Field O) : Option (List (Pos × O)) :=
  collect f.rbags f.dh (fun c e => e.map (fun o => (notDiscretize rnd f.discretization c, o))) (cells f.dw f.dh)

/-- The calls of `iter_objects_unbuffered` (src/engine/fields/field_2d.rs:677-697). -/
def iterObjectsUnbuffered (rnd : Rat → Rat) (f : Field2D.Field O) : Option (List (Pos × O)) :=
  collect f.bags f.dh (fun c e => e.map (fun o => (notDiscretize rnd f.discretization c, o))) (cells f.dw f.dh)

/-- `get_empty_bags` (src/engine/fields/field_2d.rs:727-739). -/
def getEmptyBags (rnd : Rat → Rat) (f : Field2D.Field O) : Option (List Pos) :=
  collect f.rbags f.dh (fun c e => if e.isEmpty then [notDiscretize rnd f.discretization c] else []) (cells f.dw f.dh)

/-- `get_random_empty_bag` (src/engine/fields/field_2d.rs:764-772); `genRange n` is the draw of `rng.gen_range(0..n)`. -/
def getRandomEmptyBag (rnd : Rat → Rat) (f : Field2D.Field O) (genRange : Nat → Nat) : Option (Option Pos) :=
  match getEmptyBags rnd f with
  | none => none
  | some [] => some none
  | some (b :: bs) =>
    match (b :: bs)[genRange (b :: bs).length]? with
    | none => none
    | some p => some (some p)

/-- `set_object_location` (src/engine/fields/field_2d.rs:838-846). -/
def setObjectLocation (rnd : Rat → Rat) (f : Field2D.Field O) (object : O) (loc : Pos) : Option (Field2D.Field O) :=
  match vecGet f.bags f.dh (discretize rnd f.discretization loc) with
  | none => none
  | some b =>
    (vecSet f.bags f.dh (discretize rnd f.discretization loc) (b ++ [object])).map (fun v =>
      { f with bags := v, nagents := if f.densityCheck then f.nagents else f.nagents + 1 })

/-- `remove_object_location` (src/engine/fields/field_2d.rs:885-898). -/
def removeObjectLocation (rnd : Rat → Rat) (f : Field2D.Field O) (object : O) (loc : Pos) : Option (Field2D.Field O) :=
  match vecGet f.bags f.dh (discretize rnd f.discretization loc) with
  | none => none
  | some b =>
    if b.isEmpty then some f
    else if f.densityCheck then
      (vecSet f.bags f.dh (discretize rnd f.discretization loc) (b.filter (fun x => x != object))).map (fun v =>
        { f with bags := v })
    else if f.nagents < b.length - (b.filter (fun x => x != object)).length then none
    else
      (vecSet f.bags f.dh (discretize rnd f.discretization loc) (b.filter (fun x => x != object))).map (fun v =>
        { f with bags := v, nagents := f.nagents - (b.length - (b.filter (fun x => x != object)).length) })

/-- One call (the methods of src/engine/fields/field_2d.rs:838-921); `lazy_update` computes with no `f32`. -/
def exec (rnd : Rat → Rat) (f : Field2D.Field O) : FieldOp O → Option (Field2D.Field O)
  | .place o l => setObjectLocation rnd f o l
  | .remove o l => removeObjectLocation rnd f o l
  | .update => some f
  | .lazyUpdate => lazyUpdate f

/-- A program on a field; the calls are listed newest first (the methods of src/engine/fields/field_2d.rs:838-921). -/
def run (rnd : Rat → Rat) (f : Field2D.Field O) : List (FieldOp O) → Option (Field2D.Field O)
  | [] => some f
  | op :: before => (run rnd f before).bind (fun f' => exec rnd f' op)

end Verif.Single
