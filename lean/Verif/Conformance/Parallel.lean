import Verif.Model.ParGrid
import Verif.Model.ParField2D
import Verif.Model.ParNetwork
import Verif.Conformance.Objects
import Verif.Conformance.Networks

/-!
The tests that krABMaga ships for the feature `parallel`, run on the model (see `NumberGrids`), with two cpus and hash functions
that use every shard.
-/

namespace Verif.Conformance

open Grid ParGrid

/-- A hash of the locations. -/
def hashLoc (l : Loc) : Nat := (l.x * 10 + l.y).toNat * 2 ^ 54

/-- A hash of the ids. -/
def hashId (i : Nat) : Nat := i * 2 ^ 54

example : ((cells 10 10).map (fun l => DBDashMap.determineShard 61 (hashLoc l))).eraseDups.length = 8 := by decide +kernel

/-- tests/engine/parallel/dense_number_grid_2d.rs:16-83, `dense_number_grid_2d`. The assertions inside the closures are checked
as: the closure only sees the value it expects. -/
def parDenseNumber : Option Unit := do
  let g : NGrid Nat := NGrid.newDense 2 hashLoc 10 10
  let g ← locs10.foldlM (fun g l => g.setValueLocation 0 l) g
  let g := g.update
  let g ← g.applyToAllValues (fun _ => 1) .WRITE
  let g := g.update
  let g ← g.applyToAllValues (fun v => if v = 1 then v + 1 else 1000) .READWRITE
  let g := g.update
  let g ← g.applyToAllValues (fun v => if v = 2 then v + 1 else 1000) .READ
  locs10.forM (fun l => do
    let v ← g.getValueUnbuffered l
    check (v == some 3))
  locs10.forM (fun l => do
    let v ← g.getValue l
    check (v == some 2))
  let g ← locs10.foldlM (fun g l => g.setValueLocation (l.x * l.y).toNat l) g
  let g := g.lazyUpdate
  locs10.forM (fun l => do
    let v ← g.getValue l
    check (v == some (l.x * l.y).toNat))

example : parDenseNumber = some () := by decide +kernel

/-- tests/engine/parallel/sparse_number_grid_2d.rs:16-68, `sparse_number_grid_2d`. -/
def parSparseNumber : Option Unit := do
  let g : NGrid Nat := NGrid.newSparse 2 hashLoc 10 10
  let g ← locs10.foldlM (fun g l => g.setValueLocation 0 l) g
  let g := g.update
  let g ← g.applyToAllValues (fun _ => 1) .WRITE
  let g := g.update
  let g ← g.applyToAllValues (fun v => v + 1) .READWRITE
  let g := g.update
  let g ← g.applyToAllValues (fun v => v) .READ
  locs10.forM (fun l => do
    let v ← g.getValue l
    check (v == some 2))
  let g ← locs10.foldlM (fun g l => g.setValueLocation (l.x * l.y).toNat l) g
  let g := g.lazyUpdate
  locs10.forM (fun l => do
    let v ← g.getValue l
    check (v == some (l.x * l.y).toNat))

example : parSparseNumber = some () := by decide +kernel

/-- tests/engine/parallel/dense_object_grid_2d.rs:17-64 and tests/engine/parallel/sparse_object_grid_2d.rs:121-168,
`dense_object_grid_2d_gets` and `sparse_object_grid_2d_gets`; `loc` is the draw of the test. -/
def parObjectGets (loc : Loc) : Option Unit := do
  let g : OGrid Bird Nat := OGrid.new 2 hashId hashLoc 10 10
  let v ← g.getObjects loc
  check v.isNone
  let b := bird 0
  let g ← g.setObjectLocation Bird.id b loc
  let v ← g.getObjectsUnbuffered loc
  let v ← v
  let x ← v[0]?
  check (x.id == b.id)
  let v ← g.getObjects loc
  check v.isNone
  let v ← g.get Bird.id b
  check v.isNone
  let l ← g.getLocationUnbuffered Bird.id b
  check (l == some loc)
  let l ← g.getLocation Bird.id b
  check l.isNone
  let g := g.update
  let v ← g.getObjects loc
  let v ← v
  let x ← v[0]?
  check (x.id == b.id)
  let v ← g.get Bird.id b
  let v ← v
  check (v.id == b.id)
  let g ← g.removeObject Bird.id b
  let g := g.lazyUpdate
  let v ← g.getObjectsUnbuffered loc
  check v.isNone
  let v ← g.getObjects loc
  check v.isNone
  let v ← g.get Bird.id b
  check v.isNone

example : [⟨0, 0⟩, ⟨3, 7⟩, ⟨9, 9⟩].all (fun l => parObjectGets l == some ()) = true := by decide +kernel

/-- tests/engine/parallel/dense_object_grid_2d.rs:68-127 and tests/engine/parallel/sparse_object_grid_2d.rs:58-117,
`dense_object_grid_2d_apply` and `sparse_object_grid_2d_apply`. -/
def parObjectApply : Option Unit := do
  let g : OGrid Bird Nat := OGrid.new 2 hashId hashLoc 10 10
  let g ← locs10.foldlM (fun g l => g.setObjectLocation Bird.id (birdAt l) l) g
  let g := g.lazyUpdate
  let g ← g.applyToAllValues Bird.id (fun _ b => some { b with flag := true }) .WRITE
  let g := g.lazyUpdate
  let es ← g.iterObjects
  check (es.all (fun e => e.2.flag))
  let g ← g.applyToAllValues Bird.id (fun _ b => some { b with flag := false }) .READ
  let es ← g.iterObjects
  check (es.all (fun e => !e.2.flag))
  let g ← g.applyToAllValues Bird.id (fun _ b => some { b with flag := true }) .READWRITE
  let g := g.lazyUpdate
  let es ← g.iterObjects
  check (es.all (fun e => e.2.flag))

example : parObjectApply = some () := by decide +kernel

/-- tests/engine/parallel/sparse_object_grid_2d.rs:17-54, `sparse_object_grid_2d_bags`; `d` is the draw of
`get_random_empty_bag`. -/
def parObjectBags (d : Loc) : Option Unit := do
  let g : OGrid Bird Nat := OGrid.new 2 hashId hashLoc 10 10
  let v ← g.getEmptyBags
  check (v.length == 100)
  let loc ← match g.getRandomEmptyBag [d] with
    | .returned (some l) => some l
    | _ => none
  let g ← g.setObjectLocation Bird.id (bird 0) loc
  let g := g.update
  let v ← g.getEmptyBags
  check (v.length == 99)
  let g ← locs10.foldlM (fun g l => g.setObjectLocation Bird.id (birdAt l) l) g
  let g := g.lazyUpdate
  let v ← g.getEmptyBags
  check (v.length == 0)

example : [⟨0, 0⟩, ⟨9, 9⟩].all (fun l => parObjectBags l == some ()) = true := by decide +kernel

open ParField2D (PField)

/-- The field of `Flocker::new` (tests/model/flockers/state.rs:11-35) with the feature `parallel`. -/
def parFlocker : PField Bird Nat := PField.new 2 hashId hashLoc 10 10 (1 / 2) true

/-- Places a bird at its own position. -/
def parPut (f : PField Bird Nat) (b : Bird) : Option (PField Bird Nat) := f.setObjectLocation Bird.id b b.pos

/-- tests/engine/parallel/field_2d.rs:39-97, `field_2d_neighbors`; `fly` is the draw of the test. -/
def parFieldNeighbors (fly : Rat) : Option Unit := do
  let f := parFlocker
  let f ← parPut f (bird 1)
  let f ← parPut f (bird 2)
  let f := f.lazyUpdate
  check (f.numObjects == 2)
  let v ← f.getNeighborsWithinDistance Bird.pos ⟨5, 5⟩ 1
  check (v.length == 0)
  let v ← f.getNeighborsWithinRelaxDistance ⟨5, 5⟩ 1
  check (v.length == 0)
  let f ← parPut f (bird 1 ⟨fly, fly⟩)
  let f ← parPut f (bird 2)
  let f := f.lazyUpdate
  let v ← f.getNeighborsWithinDistance Bird.pos ⟨fly, fly⟩ 1
  check (v.length == 1 && v.contains (bird 1))
  let v ← f.getNeighborsWithinDistance Bird.pos ⟨0, 0⟩ 1
  check (v.length == 1 && v.contains (bird 2))
  let v ← f.getNeighborsWithinDistance Bird.pos ⟨5, 5⟩ 10
  check (v.length == 2 && v.contains (bird 1) && v.contains (bird 2))
  let v ← f.getNeighborsWithinRelaxDistance ⟨5, 5⟩ 10
  check (v.length == 2 && v.contains (bird 1) && v.contains (bird 2))

example : [5, 9].all (fun fly => parFieldNeighbors fly == some ()) = true := by decide +kernel

/-- tests/engine/parallel/field_2d.rs:102-161, `field_2d_gets`. -/
def parFieldGets : Option Unit := do
  let f := parFlocker
  let f ← parPut f (bird 1)
  let f ← parPut f (bird 2 ⟨5, 5⟩)
  let f ← parPut f (bird 3 ⟨5, 5⟩)
  let f := f.lazyUpdate
  check (f.numObjects == 3)
  let v ← f.getObjects ⟨5, 5⟩
  check (v.length == 2 && v.contains (bird 2) && v.contains (bird 3))
  let v ← f.getObjects ⟨10, 0⟩
  check (v.length == 0)
  let k ← f.numObjectsAtLocation ⟨5, 5⟩
  check (k == 2)
  let k ← f.numObjectsAtLocation ⟨0, 0⟩
  check (k == 1)
  let b ← f.get Bird.id (bird 1)
  let b ← b
  check (b.id == 1)
  let f ← f.setObjectLocation Bird.id (bird 1) ⟨1, 2⟩
  let f := f.lazyUpdate
  let l ← f.getLocation Bird.id (bird 1)
  check (l == some ⟨1, 2⟩)
  let f ← f.setObjectLocation Bird.id (bird 3 ⟨6, 6⟩) ⟨6, 6⟩
  let l ← f.getLocationUnbuffered Bird.id (bird 3 ⟨6, 6⟩)
  check (l == some ⟨6, 6⟩)

example : parFieldGets = some () := by decide +kernel

open ParNetwork (PNet)

/-- A network of ten numbers with a ring of edges. -/
def parRing (d : Bool) : Option (PNet Nat Nat String Nat) := do
  let n ← (List.range 10).foldlM (fun n i => ParNetwork.addNode id n i) (ParNetwork.new 2 hashId d)
  (List.range 10).foldlM (fun n i => (ParNetwork.addEdge id n i ((i + 1) % 10) .simple).map Prod.fst) n

/-- The assertions of the two tests of the network on the ring. -/
def parRingShown (n : PNet Nat Nat String Nat) (degree : Nat) : Option Unit :=
  (List.range 10).forM (fun i => do
    let u ← ParNetwork.getObject n i
    check (u == some i)
    let es ← ParNetwork.getEdges id n i
    let es ← es
    check (es.length == degree))

/-- The edge to the next node. -/
def parRingEdges (n : PNet Nat Nat String Nat) : Option Unit :=
  (List.range 10).forM (fun i => do
    let e ← ParNetwork.getEdge id n i ((i + 1) % 10)
    let e ← e
    check (e.u == i && e.v == (i + 1) % 10))

/-- tests/engine/parallel/network.rs:10-47, `network_directed`. -/
def parNetworkDirected : Option Unit := do
  let n ← parRing true
  let n := ParNetwork.update n
  parRingShown n 1
  parRingEdges n
  let n ← (List.range 10).foldlM (fun n i => (ParNetwork.addEdge id n ((i + 1) % 10) i .simple).map Prod.fst) n
  let n := ParNetwork.update n
  parRingShown n 2

example : parNetworkDirected = some () := by decide +kernel

/-- tests/engine/parallel/network.rs:51-75, `network_undirected`. -/
def parNetworkUndirected : Option Unit := do
  let n ← parRing false
  let n := ParNetwork.update n
  parRingShown n 2
  parRingEdges n

example : parNetworkUndirected = some () := by decide +kernel

end Verif.Conformance
