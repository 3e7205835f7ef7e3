import Verif.Model.DBDashMap
import Verif.Model.Field2D

/-!
Model of `Field2D` under the features `parallel` and `visualization` (src/engine/fields/field_2d.rs:27-266), built on `DBDashMap`.

Simplifications: those of `DBDashMap` and of the sequential `Field2D` (exact rationals; sizes and discretization meant to be
positive; no overflow; the capacity asked of the allocator is not modelled, but the division it needs is). `Eq` and `Hash` of an
object compare an identity `ident o` only. Each method is executed alone, except in the last part, which interleaves concurrent
placements. `none` is a panic.
-/

namespace Verif.ParField2D

open Grid Torus DBDashMap Field2D

variable {O I : Type} [DecidableEq I]

/-- `Field2D` (src/engine/fields/field_2d.rs:28-36). -/
structure PField (O I : Type) where
  findex : DB I (O × Loc)
  fbag : DB Loc (List O)
  floc : DB I (O × Pos)
  width : Rat
  height : Rat
  discretization : Rat
  toroidal : Bool

/-- `new` (src/engine/fields/field_2d.rs:40-50). -/
def PField.new (cpus : Nat) (hashO : I → Nat) (hashL : Loc → Nat) (w h d : Rat) (t : Bool) : PField O I :=
  { findex := DBDashMap.new cpus hashO, fbag := DBDashMap.new cpus hashL, floc := DBDashMap.new cpus hashO, width := w,
    height := h, discretization := d, toroidal := t }

/-- `discretize` (src/engine/fields/field_2d.rs:52-63). -/
def PField.cellOf (f : PField O I) (loc : Pos) : Loc := ⟨(loc.x / f.discretization).floor, (loc.y / f.discretization).floor⟩

/-- The pairs `(i, j)` of the search, in loop order (src/engine/fields/field_2d.rs:75-93, 127-145). -/
def PField.searchCells (f : PField O I) (loc : Pos) (dist : Rat) : List Loc :=
  (irange
      (window f.toroidal (f.cellOf loc).x (dist / f.discretization).floor (f.width / f.discretization).ceil).1
      (window f.toroidal (f.cellOf loc).x (dist / f.discretization).floor (f.width / f.discretization).ceil).2).flatMap (fun i =>
    (irange
      (window f.toroidal (f.cellOf loc).y (dist / f.discretization).floor (f.height / f.discretization).ceil).1
      (window f.toroidal (f.cellOf loc).y (dist / f.discretization).floor (f.height / f.discretization).ceil).2).map (fun j =>
        ⟨i, j⟩))

/-- `bag_id` (src/engine/fields/field_2d.rs:94-97, 146-149). -/
def PField.bagId (f : PField O I) (c : Loc) : Option Loc :=
  match tTransform c.x (f.width / f.discretization).ceil, tTransform c.y (f.height / f.discretization).ceil with
  | some x, some y => some ⟨x, y⟩
  | _, _ => none

/-- The search loop (src/engine/fields/field_2d.rs:92-113, 144-159); a missing bag is skipped. -/
def PField.scan (f : PField O I) (keep : Loc → O → Bool) : List Loc → Option (List O)
  | [] => some []
  | c :: cs =>
    match f.bagId c with
    | none => none
    | some b =>
      match getRead f.fbag b with
      | none => none
      | some none => f.scan keep cs
      | some (some bag) => (f.scan keep cs).map (fun r => bag.filter (keep b) ++ r)

/-- The test of the exact search (src/engine/fields/field_2d.rs:98-110). -/
def PField.keepExact (f : PField O I) (locOf : O → Pos) (loc : Pos) (dist : Rat) (b : Loc) (elem : O) : Bool :=
  decide ((checkCircle b f.discretization f.width f.height loc dist f.toroidal = 0 ∧
      distSq loc (locOf elem) f.width f.height f.toroidal ≤ dist * dist) ∨
    checkCircle b f.discretization f.width f.height loc dist f.toroidal = 1)

/-- `get_neighbors_within_distance` (src/engine/fields/field_2d.rs:65-115): the capacity is computed first, dividing by the number
of published objects. -/
def PField.getNeighborsWithinDistance (f : PField O I) (locOf : O → Pos) (loc : Pos) (dist : Rat) : Option (List O) :=
  if rLen f.findex = 0 then none
  else if dist ≤ 0 then some []
  else f.scan (f.keepExact locOf loc dist) (f.searchCells loc dist)

/-- `get_neighbors_within_relax_distance` (src/engine/fields/field_2d.rs:117-160). -/
def PField.getNeighborsWithinRelaxDistance (f : PField O I) (loc : Pos) (dist : Rat) : Option (List O) :=
  if rLen f.findex = 0 then none
  else if dist ≤ 0 then some []
  else f.scan (fun _ _ => true) (f.searchCells loc dist)

/-- `get` (src/engine/fields/field_2d.rs:165-170). -/
def PField.get (f : PField O I) (ident : O → I) (object : O) : Option (Option O) :=
  (getRead f.floc (ident object)).map (fun r => r.map Prod.fst)

/-- `get_objects` (src/engine/fields/field_2d.rs:173-186). -/
def PField.getObjects (f : PField O I) (loc : Pos) : Option (List O) :=
  (getRead f.fbag (f.cellOf loc)).map (fun b => b.getD [])

/-- `get_location` (src/engine/fields/field_2d.rs:189-191). -/
def PField.getLocation (f : PField O I) (ident : O → I) (object : O) : Option (Option Pos) :=
  (getRead f.floc (ident object)).map (fun r => r.map Prod.snd)

/-- `get_location_unbuffered` (src/engine/fields/field_2d.rs:194-197): `expect` panics if nothing is written. -/
def PField.getLocationUnbuffered (f : PField O I) (ident : O → I) (object : O) : Option (Option Pos) :=
  (getWrite f.floc (ident object)).bind (fun r =>
    match r with
    | none => none
    | some e => some (some e.2))

/-- `get_unbuffered` (src/engine/fields/field_2d.rs:202-217). -/
def PField.getUnbuffered (f : PField O I) (ident : O → I) (object : O) : Option (Option O) :=
  (getWrite f.floc (ident object)).bind (fun r =>
    match r with
    | none => some none
    | some e =>
      (getWrite f.fbag (f.cellOf e.2)).bind (fun b =>
        match b with
        | none => none
        | some bag => some (bag.find? (fun x => decide (ident x = ident object)))))

/-- `num_objects` (src/engine/fields/field_2d.rs:220-222). -/
def PField.numObjects (f : PField O I) : Nat := rLen f.findex

/-- `num_objects_at_location` (src/engine/fields/field_2d.rs:225-233). -/
def PField.numObjectsAtLocation (f : PField O I) (loc : Pos) : Option Nat :=
  (getRead f.fbag (f.cellOf loc)).map (fun b => (b.getD []).length)

/-- The last part of `set_object_location` (src/engine/fields/field_2d.rs:240-250): the object is pushed, nothing is taken out. -/
def PField.putInBag (f : PField O I) (object : O) (bag : Loc) : Option (DB Loc (List O)) :=
  (getWrite f.fbag bag).bind (fun b =>
    match b with
    | some _ => modifyWrite f.fbag bag (fun v => v ++ [object])
    | none => (DBDashMap.insert f.fbag bag [object]).map Prod.fst)

/-- `set_object_location` (src/engine/fields/field_2d.rs:236-251). -/
def PField.setObjectLocation (f : PField O I) (ident : O → I) (object : O) (loc : Pos) : Option (PField O I) :=
  (DBDashMap.insert f.floc (ident object) (object, loc)).bind (fun l =>
    (DBDashMap.insert f.findex (ident object) (object, f.cellOf loc)).bind (fun i =>
      (f.putInBag object (f.cellOf loc)).map (fun b => { f with floc := l.1, findex := i.1, fbag := b })))

/-- `update` (src/engine/fields/field_2d.rs:256-260). -/
def PField.update (f : PField O I) : PField O I :=
  { f with floc := DBDashMap.update f.floc, fbag := DBDashMap.update f.fbag, findex := DBDashMap.update f.findex }

/-- `lazy_update` (src/engine/fields/field_2d.rs:261-265). -/
def PField.lazyUpdate (f : PField O I) : PField O I :=
  { f with floc := DBDashMap.lazyUpdate f.floc, fbag := DBDashMap.lazyUpdate f.fbag, findex := DBDashMap.lazyUpdate f.findex }

/-- The calls that change a field; there is no removal under these features (src/engine/fields/field_2d.rs:236-265). -/
inductive ROp (O : Type) where
  | place (o : O) (l : Pos)
  | update
  | lazyUpdate

/-- One call (the methods of src/engine/fields/field_2d.rs:236-265). -/
def PField.exec (ident : O → I) (f : PField O I) : ROp O → Option (PField O I)
  | .place o l => f.setObjectLocation ident o l
  | .update => some f.update
  | .lazyUpdate => some f.lazyUpdate

/-- A program; the calls are listed newest first (the methods of src/engine/fields/field_2d.rs:236-265). -/
def PField.run (ident : O → I) (f : PField O I) : List (ROp O) → Option (PField O I)
  | [] => some f
  | op :: before => (PField.run ident f before).bind (fun f' => f'.exec ident op)

/-! ### Concurrent placements -/

/-- Where a thread is inside `set_object_location` (src/engine/fields/field_2d.rs:236-251): before `floc.insert`, before
`findex.insert`, before `fbag.get_write`, after `get_write` answered `None` and released the lock, at the end. -/
inductive Pc where
  | loc
  | index
  | bag
  | missing
  | done
  deriving DecidableEq, Repr

/-- A thread placing `object` at `loc` (src/engine/fields/field_2d.rs:236-251). -/
structure Thread (O : Type) where
  object : O
  loc : Pos
  pc : Pc

/-- The field and the threads (src/engine/fields/field_2d.rs:236-251). -/
structure Conc (O I : Type) where
  field : PField O I
  threads : List (Thread O)

/-- One atomic section of a thread (src/engine/fields/field_2d.rs:238-250). -/
def threadStep (ident : O → I) (f : PField O I) (t : Thread O) : Option (PField O I × Pc) :=
  match t.pc with
  | .loc => (DBDashMap.insert f.floc (ident t.object) (t.object, t.loc)).map (fun r => ({ f with floc := r.1 }, .index))
  | .index =>
    (DBDashMap.insert f.findex (ident t.object) (t.object, f.cellOf t.loc)).map (fun r => ({ f with findex := r.1 }, .bag))
  | .bag =>
    (getWrite f.fbag (f.cellOf t.loc)).bind (fun b =>
      match b with
      | some _ => (modifyWrite f.fbag (f.cellOf t.loc) (fun v => v ++ [t.object])).map (fun m => ({ f with fbag := m }, .done))
      | none => some (f, .missing))
  | .missing =>
    (DBDashMap.insert f.fbag (f.cellOf t.loc) [t.object]).map (fun r => ({ f with fbag := r.1 }, .done))
  | .done => some (f, .done)

/-- The thread number `i` makes a step (src/engine/fields/field_2d.rs:236-251). -/
def Conc.step (ident : O → I) (c : Conc O I) (i : Nat) : Option (Conc O I) :=
  match c.threads[i]? with
  | none => some c
  | some t => (threadStep ident c.field t).map (fun r => { field := r.1, threads := c.threads.set i { t with pc := r.2 } })

/-- The threads make steps in the order of the schedule (src/engine/fields/field_2d.rs:236-251; the parallel step is
src/engine/schedule.rs:127-221). -/
def Conc.runAll (ident : O → I) (c : Conc O I) : List Nat → Option (Conc O I)
  | [] => some c
  | i :: is => (c.step ident i).bind (fun c' => c'.runAll ident is)

end Verif.ParField2D
