import Verif.Model.Torus

/-!
Model of `Field2D`, sequential variant (src/engine/fields/field_2d.rs:266-922).

Simplifications: `f32` values are exact rationals; the field sizes and the discretization are meant to be
positive; `i32` overflow, saturation of casts and `RefCell` borrow failures are not modelled. `none` is a
panic. `locOf o` is `o.get_location()`: the location an object carries itself, which need not be the one
it was placed at.
-/

namespace Verif.Field2D

open Grid Torus

/-- `Field2D` (src/engine/fields/field_2d.rs:269-283). `rbags` and `bags` are `bags[read]` and
`bags[write]`. -/
structure Field (O : Type) where
  rbags : List (List O)
  bags : List (List O)
  nagents : Nat
  width : Rat
  height : Rat
  discretization : Rat
  toroidal : Bool
  dh : Int
  dw : Int
  density : Nat
  densityCheck : Bool
  deriving DecidableEq

variable {O : Type} [BEq O]

/-- `new` (src/engine/fields/field_2d.rs:304-324). -/
def new (w h d : Rat) (t : Bool) : Field O :=
  { rbags := List.replicate (((w / d).ceil + 1) * ((h / d).ceil + 1)).toNat []
    bags := List.replicate (((w / d).ceil + 1) * ((h / d).ceil + 1)).toNat []
    nagents := 0
    width := w
    height := h
    discretization := d
    toroidal := t
    dh := (h / d).ceil + 1
    dw := (w / d).ceil + 1
    density := 0
    densityCheck := false }

/-- `discretize` (src/engine/fields/field_2d.rs:328-339, src/engine/fields/kdtree_mpi.rs:612-623). -/
def discretize (d : Rat) (loc : Pos) : Loc := ⟨(loc.x / d).floor, (loc.y / d).floor⟩

/-- `not_discretize` (src/engine/fields/field_2d.rs:345-354). -/
def notDiscretize (d : Rat) (loc : Loc) : Pos := ⟨loc.x * d, loc.y * d⟩

/-- `lo..hi+1` (src/engine/fields/field_2d.rs:416-417). -/
def irange (lo hi : Int) : List Int := (List.range (hi + 1 - lo).toNat).map (fun (k : Nat) => lo + k)

/-- First and last cell searched along one axis (src/engine/fields/field_2d.rs:399-414). -/
def window (toroidal : Bool) (c discDist maxC : Int) : Int × Int :=
  if toroidal then (max 0 (c - discDist), min (c + discDist) (maxC - 1)) else (c - discDist, c + discDist)

/-- The pairs `(i, j)` of the search, in loop order (src/engine/fields/field_2d.rs:399-417). -/
def searchCells (f : Field O) (loc : Pos) (dist : Rat) : List Loc :=
  (irange
      (window f.toroidal (discretize f.discretization loc).x (dist / f.discretization).floor
        (f.width / f.discretization).ceil).1
      (window f.toroidal (discretize f.discretization loc).x (dist / f.discretization).floor
        (f.width / f.discretization).ceil).2).flatMap (fun i =>
    (irange
      (window f.toroidal (discretize f.discretization loc).y (dist / f.discretization).floor
        (f.height / f.discretization).ceil).1
      (window f.toroidal (discretize f.discretization loc).y (dist / f.discretization).floor
        (f.height / f.discretization).ceil).2).map (fun j => ⟨i, j⟩))

/-- `bag_id` (src/engine/fields/field_2d.rs:418-421). -/
def bagId (f : Field O) (c : Loc) : Option Loc :=
  match tTransform c.x (f.width / f.discretization).ceil, tTransform c.y (f.height / f.discretization).ceil with
  | some x, some y => some ⟨x, y⟩
  | _, _ => none

/-- The search loop (src/engine/fields/field_2d.rs:416-438); `keep` decides which elements of a bag are
pushed. -/
def scan (f : Field O) (keep : Loc → O → Bool) : List Loc → Option (List O)
  | [] => some []
  | c :: cs =>
    match bagId f c with
    | none => none
    | some b =>
      match vecGet f.rbags f.dh b with
      | none => none
      | some bag => (scan f keep cs).map (fun r => bag.filter (keep b) ++ r)

/-- The test of the exact search (src/engine/fields/field_2d.rs:423-432). -/
def keepExact (f : Field O) (locOf : O → Pos) (loc : Pos) (dist : Rat) (b : Loc) (elem : O) : Bool :=
  decide ((checkCircle b f.discretization f.width f.height loc dist f.toroidal = 0 ∧
      distSq loc (locOf elem) f.width f.height f.toroidal ≤ dist * dist) ∨
    checkCircle b f.discretization f.width f.height loc dist f.toroidal = 1)

/-- `get_neighbors_within_distance` (src/engine/fields/field_2d.rs:386-440). -/
def getNeighborsWithinDistance (f : Field O) (locOf : O → Pos) (loc : Pos) (dist : Rat) : Option (List O) :=
  if dist ≤ 0 then some [] else scan f (keepExact f locOf loc dist) (searchCells f loc dist)

/-- `get_neighbors_within_relax_distance` (src/engine/fields/field_2d.rs:472-517). -/
def getNeighborsWithinRelaxDistance (f : Field O) (loc : Pos) (dist : Rat) : Option (List O) :=
  if dist ≤ 0 then some [] else scan f (fun _ _ => true) (searchCells f loc dist)

/-- `get_objects` (src/engine/fields/field_2d.rs:544-549). -/
def getObjects (f : Field O) (loc : Pos) : Option (List O) := vecGet f.rbags f.dh (discretize f.discretization loc)

/-- `get_objects_unbuffered` (src/engine/fields/field_2d.rs:577-582). -/
def getObjectsUnbuffered (f : Field O) (loc : Pos) : Option (List O) :=
  vecGet f.bags f.dh (discretize f.discretization loc)

/-- The calls of `iter_objects` (src/engine/fields/field_2d.rs:619-639). -/
def iterObjects (f : Field O) : Option (List (Pos × O)) :=
  collect f.rbags f.dh (fun c e => e.map (fun o => (notDiscretize f.discretization c, o))) (cells f.dw f.dh)

/-- The calls of `iter_objects_unbuffered` (src/engine/fields/field_2d.rs:677-697). -/
def iterObjectsUnbuffered (f : Field O) : Option (List (Pos × O)) :=
  collect f.bags f.dh (fun c e => e.map (fun o => (notDiscretize f.discretization c, o))) (cells f.dw f.dh)

/-- `get_empty_bags` (src/engine/fields/field_2d.rs:727-739). -/
def getEmptyBags (f : Field O) : Option (List Pos) :=
  collect f.rbags f.dh (fun c e => if e.isEmpty then [notDiscretize f.discretization c] else []) (cells f.dw f.dh)

/-- `get_random_empty_bag` (src/engine/fields/field_2d.rs:764-772); `genRange n` is the draw of
`rng.gen_range(0..n)`. -/
def getRandomEmptyBag (f : Field O) (genRange : Nat → Nat) : Option (Option Pos) :=
  match getEmptyBags f with
  | none => none
  | some [] => some none
  | some (b :: bs) =>
    match (b :: bs)[genRange (b :: bs).length]? with
    | none => none
    | some p => some (some p)

/-- `num_objects_at_location` (src/engine/fields/field_2d.rs:803-808). -/
def numObjectsAtLocation (f : Field O) (loc : Pos) : Option Nat :=
  (vecGet f.rbags f.dh (discretize f.discretization loc)).map List.length

/-- `set_object_location` (src/engine/fields/field_2d.rs:838-846). -/
def setObjectLocation (f : Field O) (object : O) (loc : Pos) : Option (Field O) :=
  match vecGet f.bags f.dh (discretize f.discretization loc) with
  | none => none
  | some b =>
    (vecSet f.bags f.dh (discretize f.discretization loc) (b ++ [object])).map (fun v =>
      { f with bags := v, nagents := if f.densityCheck then f.nagents else f.nagents + 1 })

/-- `remove_object_location` (src/engine/fields/field_2d.rs:885-898). `nagents -= ...` underflows, hence
panics, if more objects are removed than were counted. -/
def removeObjectLocation (f : Field O) (object : O) (loc : Pos) : Option (Field O) :=
  match vecGet f.bags f.dh (discretize f.discretization loc) with
  | none => none
  | some b =>
    if b.isEmpty then some f
    else if f.densityCheck then
      (vecSet f.bags f.dh (discretize f.discretization loc) (b.filter (fun x => x != object))).map (fun v =>
        { f with bags := v })
    else if f.nagents < b.length - (b.filter (fun x => x != object)).length then none
    else
      (vecSet f.bags f.dh (discretize f.discretization loc) (b.filter (fun x => x != object))).map (fun v =>
        { f with bags := v, nagents := f.nagents - (b.length - (b.filter (fun x => x != object)).length) })

/-- `lazy_update` (src/engine/fields/field_2d.rs:905-921). The division panics on a field without cells. -/
def lazyUpdate (f : Field O) : Option (Field O) :=
  if f.densityCheck then
    some { f with rbags := f.bags, bags := f.rbags.map (fun _ => []) }
  else if (f.dw * f.dh).toNat = 0 then none
  else
    some { f with
      rbags := f.bags
      bags := List.replicate (f.dw * f.dh).toNat []
      density := f.nagents / (f.dw * f.dh).toNat
      densityCheck := true }

/-- The calls of a program that change a field. `update` (src/engine/fields/field_2d.rs:902) does nothing. -/
inductive FieldOp (O : Type) where
  | place (o : O) (l : Pos)
  | remove (o : O) (l : Pos)
  | update
  | lazyUpdate

/-- One call (the methods of src/engine/fields/field_2d.rs:838-921). -/
def exec (f : Field O) : FieldOp O → Option (Field O)
  | .place o l => setObjectLocation f o l
  | .remove o l => removeObjectLocation f o l
  | .update => some f
  | .lazyUpdate => lazyUpdate f

/-- A program on a field; the calls are listed newest first (the methods of src/engine/fields/field_2d.rs:838-921). -/
def run (f : Field O) : List (FieldOp O) → Option (Field O)
  | [] => some f
  | op :: before => (run f before).bind (fun f' => exec f' op)

end Verif.Field2D
