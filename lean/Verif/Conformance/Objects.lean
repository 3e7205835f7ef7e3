import Verif.Model.DenseObjectGrid
import Verif.Model.SparseObjectGrid
import Verif.Model.Field2D
import Verif.Conformance.NumberGrids

/-!
The tests of the object grids and of the continuous field that krABMaga ships, run on the model (see `NumberGrids`). The field
runs in exact arithmetic; the tests only use positions for which `f32` arithmetic is exact.
-/

namespace Verif.Conformance

open Grid

/-- `Bird` (tests/model/flockers/bird.rs:19-24), without `last_d`, which these tests do not use. -/
structure Bird where
  id : Nat
  pos : Torus.Pos
  flag : Bool

/-- `PartialEq` of a bird compares the id only (tests/model/flockers/bird.rs:168-172). -/
instance : BEq Bird := ⟨fun a b => a.id == b.id⟩

/-- `Bird::new` (tests/model/flockers/bird.rs:27-34). -/
def bird (id : Nat) (pos : Torus.Pos := ⟨0, 0⟩) : Bird := ⟨id, pos, false⟩

/-- The bird the tests place at a cell of the grid. -/
def birdAt (l : Loc) : Bird := bird (l.x * 10 + l.y).toNat

/-- tests/engine/dense_object_grid_2d.rs:33-104, `dense_object_grid_2d_bags`; `r` is the draw of `get_random_empty_bag`. -/
def denseObjectBags (r : Nat) : Option Unit := do
  let g ← DenseObject.new 10 10
  let v ← DenseObject.getEmptyBags (O := Bird) g
  check (v.length == 100)
  let loc ← DenseObject.getRandomEmptyBag g (fun n => r % n)
  let loc ← loc
  let g ← DenseObject.setObjectLocation g (bird 0) loc
  let loc2 ← DenseObject.getLocationUnbuffered g (bird 0)
  check (loc2 == some loc)
  let loc2 ← DenseObject.getLocationUnbuffered g (bird 1)
  check (loc2 == none)
  let g := DenseObject.lazyUpdate g
  let loc2 ← DenseObject.getLocation g (bird 0)
  check (loc2 == some loc)
  let loc2 ← DenseObject.getLocation g (bird 1)
  check (loc2 == none)
  let v ← DenseObject.getEmptyBags g
  check (v.length == 99)
  let g ← locs10.foldlM (fun g l => DenseObject.setObjectLocation g (birdAt l) l) g
  let g := DenseObject.lazyUpdate g
  let v ← DenseObject.getEmptyBags g
  check (v.length == 0)

example : [42].all (fun r => denseObjectBags r == some ()) = true := by decide +kernel

/-- tests/engine/dense_object_grid_2d.rs:113-180, `dense_object_grid_2d_apply`. -/
def denseObjectApply : Option Unit := do
  let g ← DenseObject.new 10 10
  let g ← locs10.foldlM (fun g l => DenseObject.setObjectLocation g (birdAt l) l) g
  let es ← DenseObject.iterObjectsUnbuffered g
  es.forM (fun e => do
    let v ← DenseObject.getObjectsUnbuffered g e.1
    let v ← v
    let b ← v[0]?
    check (b.id == e.2.id))
  let g := DenseObject.lazyUpdate g
  let es ← DenseObject.iterObjects g
  es.forM (fun e => do
    let v ← DenseObject.getObjects g e.1
    let v ← v
    let b ← v[0]?
    check (b.id == e.2.id))
  let g ← DenseObject.applyToAllValues g (fun _ b => some { b with flag := true }) .WRITE
  let es ← DenseObject.iterObjectsUnbuffered g
  check (es.all (fun e => e.2.flag))
  let g ← DenseObject.applyToAllValues g (fun _ b => some { b with flag := false }) .READ
  let es ← DenseObject.iterObjects g
  check (es.all (fun e => !e.2.flag))
  let g ← DenseObject.applyToAllValues g (fun _ b => some { b with flag := true }) .READWRITE
  let g := DenseObject.lazyUpdate g
  let es ← DenseObject.iterObjects g
  check (es.all (fun e => e.2.flag))

example : denseObjectApply = some () := by decide +kernel

/-- tests/engine/sparse_object_grid_2d.rs:33-133, `sparse_object_grid_2d_bags`; `d1` and `d2` are the draws of
`get_random_empty_bag`. -/
def sparseObjectBags (d1 d2 : Loc) : Option Unit := do
  let g : SparseObject.BGrid Bird := SparseObject.new 10 10
  check ((SparseObject.getEmptyBags g).length == 100)
  let loc ← match SparseObject.getRandomEmptyBag g [d1] with
    | .returned (some l) => some l
    | _ => none
  let g := SparseObject.setObjectLocation g (bird 0) loc
  check (SparseObject.getLocationUnbuffered g (bird 0) == some loc)
  check (SparseObject.getLocationUnbuffered g (bird 3) == none)
  let g := SparseObject.update g
  check (SparseObject.getLocation g (bird 0) == some loc)
  check (SparseObject.getLocation g (bird 3) == none)
  check ((SparseObject.getEmptyBags g).length == 99)
  let g := locs10.foldl (fun g l => SparseObject.setObjectLocation g { birdAt l with pos := ⟨l.x, l.y⟩ } l) g
  let g := SparseObject.lazyUpdate g
  check ((SparseObject.getEmptyBags g).length == 0)
  let g := SparseObject.lazyUpdate g
  let loc ← match SparseObject.getRandomEmptyBag g [d2] with
    | .returned (some l) => some l
    | _ => none
  let g := SparseObject.setObjectLocation g (bird 0) loc
  let g := SparseObject.removeObjectLocation g (bird 0) loc
  check (SparseObject.getObjectsUnbuffered g loc).isNone
  let g := SparseObject.lazyUpdate g
  check ((SparseObject.getEmptyBags g).length == 100)

example : [(⟨0, 0⟩, ⟨9, 9⟩), (⟨3, 7⟩, ⟨3, 7⟩)].all (fun (d : Loc × Loc) => sparseObjectBags d.1 d.2 == some ()) = true := by
  decide +kernel

/-- tests/engine/sparse_object_grid_2d.rs:142-210, `sparse_object_grid_2d_apply`. -/
def sparseObjectApply : Option Unit := do
  let g : SparseObject.BGrid Bird := SparseObject.new 10 10
  let g := locs10.foldl (fun g l => SparseObject.setObjectLocation g (birdAt l) l) g
  (SparseObject.iterObjectsUnbuffered g).forM (fun e => do
    let v ← SparseObject.getObjectsUnbuffered g e.1
    let b ← v[0]?
    check (b.id == e.2.id))
  let g := SparseObject.lazyUpdate g
  (SparseObject.iterObjects g).forM (fun e => do
    let v ← SparseObject.getObjects g e.1
    let b ← v[0]?
    check (b.id == e.2.id))
  let g ← SparseObject.applyToAllValues g (fun _ b => some { b with flag := true }) .WRITE
  check ((SparseObject.iterObjectsUnbuffered g).all (fun e => e.2.flag))
  let g ← SparseObject.applyToAllValues g (fun _ b => some { b with flag := false }) .READ
  check ((SparseObject.iterObjects g).all (fun e => !e.2.flag))
  let g ← SparseObject.applyToAllValues g (fun _ b => some { b with flag := true }) .READWRITE
  let g := SparseObject.lazyUpdate g
  check ((SparseObject.iterObjects g).all (fun e => e.2.flag))

example : sparseObjectApply = some () := by decide +kernel

/-- The field of `Flocker::new` (tests/model/flockers/state.rs:11-35). -/
def flocker : Field2D.Field Bird := Field2D.new 10 10 (1 / 2) true

/-- Places a bird at its own position. -/
def put (f : Field2D.Field Bird) (b : Bird) : Option (Field2D.Field Bird) := Field2D.setObjectLocation f b b.pos

/-- tests/engine/field_2d.rs:58-116, `field_2d_neighbors`; `fly` is the draw of the test. -/
def fieldNeighbors (fly : Rat) : Option Unit := do
  let f := flocker
  let f ← put f (bird 1)
  let f ← put f (bird 2)
  let f ← Field2D.lazyUpdate f
  check (f.nagents == 2)
  let v ← Field2D.getNeighborsWithinDistance f Bird.pos ⟨5, 5⟩ 1
  check (v.length == 0)
  let v ← Field2D.getNeighborsWithinRelaxDistance f ⟨5, 5⟩ 1
  check (v.length == 0)
  let f ← put f (bird 1 ⟨fly, fly⟩)
  let f ← put f (bird 2)
  let f ← Field2D.lazyUpdate f
  let v ← Field2D.getNeighborsWithinDistance f Bird.pos ⟨fly, fly⟩ 1
  check (v.length == 1 && v.contains (bird 1))
  let v ← Field2D.getNeighborsWithinDistance f Bird.pos ⟨0, 0⟩ 1
  check (v.length == 1 && v.contains (bird 2))
  let v ← Field2D.getNeighborsWithinDistance f Bird.pos ⟨5, 5⟩ 10
  check (v.length == 2 && v.contains (bird 1) && v.contains (bird 2))
  let v ← Field2D.getNeighborsWithinRelaxDistance f ⟨5, 5⟩ 10
  check (v.length == 2 && v.contains (bird 1) && v.contains (bird 2))

example : [5, 9].all (fun fly => fieldNeighbors fly == some ()) = true := by decide +kernel

/-- tests/engine/field_2d.rs:125-178, `field_2d_gets`. -/
def fieldGets : Option Unit := do
  let f := flocker
  let f ← put f (bird 1)
  let f ← put f (bird 2 ⟨5, 5⟩)
  let f ← put f (bird 3 ⟨5, 5⟩)
  let f ← Field2D.lazyUpdate f
  check (f.nagents == 3)
  let v ← Field2D.getObjects f ⟨5, 5⟩
  check (v.length == 2 && v.contains (bird 2) && v.contains (bird 3))
  let v ← Field2D.getObjects f ⟨10, 0⟩
  check (v.length == 0)
  let n ← Field2D.numObjectsAtLocation f ⟨5, 5⟩
  check (n == 2)
  let n ← Field2D.numObjectsAtLocation f ⟨0, 0⟩
  check (n == 1)
  let f ← put f (bird 4)
  let v ← Field2D.getObjectsUnbuffered f ⟨0, 0⟩
  check (v.length == 1)
  let v ← Field2D.getObjects f ⟨0, 0⟩
  check (v.length == 1)
  let f ← Field2D.removeObjectLocation f (bird 4) ⟨0, 0⟩
  let v ← Field2D.getObjectsUnbuffered f ⟨0, 0⟩
  check (v.length == 0)

example : fieldGets = some () := by decide +kernel

/-- tests/engine/field_2d.rs:186-211, `field_2d_bags`; `r` is the draw of `get_random_empty_bag`. -/
def fieldBags (r : Nat) : Option Unit := do
  let f := flocker
  let bags ← Field2D.getEmptyBags f
  check ((bags.length : Int) == f.dh * f.dw)
  let f ← put f (bird 1)
  let f ← put f (bird 2)
  let f ← put f (bird 3 ⟨4, 4⟩)
  let f ← Field2D.lazyUpdate f
  let bags ← Field2D.getEmptyBags f
  check ((bags.length : Int) == f.dh * f.dw - 2)
  let b ← Field2D.getRandomEmptyBag f (fun n => r % n)
  let b ← b
  check (b.x != 0 || b.y != 0)
  check (b.x != 4 || b.y != 4)

example : [176].all (fun r => fieldBags r == some ()) = true := by decide +kernel

/-- tests/engine/field_2d.rs:218-247, `field_2d_iter`, with the position 1/128 instead of 0.01. -/
def fieldIter : Option Unit := do
  let f := flocker
  let f ← put f (bird 1)
  let f ← put f (bird 2 ⟨1 / 128, 1 / 128⟩)
  let f ← put f (bird 3 ⟨5, 5⟩)
  let es ← Field2D.iterObjectsUnbuffered f
  es.forM (fun e => do
    let v ← Field2D.getObjectsUnbuffered f e.1
    check (v.contains e.2))
  let f ← Field2D.lazyUpdate f
  let v ← Field2D.getObjects f ⟨0, 0⟩
  check (v.length == 2)
  let es ← Field2D.iterObjects f
  es.forM (fun e => do
    let v ← Field2D.getObjects f e.1
    check (v.contains e.2))

example : fieldIter = some () := by decide +kernel

end Verif.Conformance
