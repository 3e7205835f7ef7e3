import Verif.Model.KdTree
import Verif.Model.MachineField

/-!
The subdivision of the distributed field `Kdtree` (src/engine/fields/kdtree_mpi.rs) on machine floats: how the field is cut into
blocks, which processes are neighbours, the halo regions, and the search for the block of a location. `rnd` rounds the exact
result of an operation (`single` for the hardware). What is not arithmetic is as in `Verif.Model.KdTree`: `none` is a panic,
`world.rank()` and `world.size()` are the parameters `rank` and `size`, and rank 0 hands its blocks to the other ranks.
-/

namespace Verif.KdMachine

open Machine

export KdTree (Axis Axis.vertical Axis.horizontal)

/-- `a == b` (src/engine/fields/kdtree_mpi.rs:274, 302, 437): NaN is not equal to itself. -/
def eqF : F → F → Bool
  | .fin p, .fin q => decide (p = q)
  | .inf s, .inf t => s == t
  | _, _ => false

/-- The position and size of a tree in `temp_subtrees` (src/engine/fields/kdtree_mpi.rs:211-239). -/
structure Tile where
  x : F
  y : F
  w : F
  h : F
  deriving DecidableEq

/-- `Block` (src/engine/fields/kdtree_mpi.rs:19-26). -/
structure Block where
  id : Nat
  x : F
  y : F
  width : F
  height : F
  deriving DecidableEq

/-- `a / 2.0` (src/engine/fields/kdtree_mpi.rs:464-472). -/
def half (rnd : Rat → Rat) (a : F) : F := div rnd a (.fin 2)

/-- `split` (src/engine/fields/kdtree_mpi.rs:453-489). The horizontal case also halves the tree it is called on, which
the caller replaces by the first half. -/
def split (rnd : Rat → Rat) (t : Tile) : Axis → Tile × Tile
  | .vertical => (⟨t.x, t.y, half rnd t.w, t.h⟩, ⟨add rnd t.x (half rnd t.w), t.y, half rnd t.w, t.h⟩)
  | .horizontal => (⟨t.x, t.y, t.w, half rnd t.h⟩, ⟨t.x, add rnd t.y (half rnd t.h), t.w, half rnd t.h⟩)

/-- One round of the inner loop (src/engine/fields/kdtree_mpi.rs:224-232) for `n`, on (`temp_subtrees`, `count`); a
`break` is taken again by the following rounds, since `count` does not change any more. -/
def passStep (rnd : Rat → Rat) (p : Nat) (axis : Axis) (s : Option (List Tile × Nat)) (n : Nat) : Option (List Tile × Nat) :=
  match s with
  | none => none
  | some (ts, count) =>
    if count ≥ p then some (ts, count)
    else match ts[n * 2]? with
      | none => none
      | some t => some ((ts.set (n * 2) (split rnd t axis).1).insertIdx (n * 2 + 1) (split rnd t axis).2, count + 1)

/-- The inner loop; `temp_subtrees.len()` is taken before the first round (src/engine/fields/kdtree_mpi.rs:223-232). -/
def pass (rnd : Rat → Rat) (p : Nat) (axis : Axis) (ts : List Tile) (count : Nat) : Option (List Tile × Nat) :=
  (List.range ts.length).foldl (passStep rnd p axis) (some (ts, count))

/-- `while count < self.processors` (src/engine/fields/kdtree_mpi.rs:223-238); `fuel = processors` passes suffice
(`C197_blocks` shows the list complete). -/
def passes (rnd : Rat → Rat) (p : Nat) : Nat → Axis → List Tile → Nat → Option (List Tile)
  | 0, _, ts, _ => some ts
  | fuel + 1, axis, ts, count =>
    if count < p then
      match pass rnd p axis ts count with
      | none => none
      | some (ts', count') => passes rnd p fuel axis.other ts' count'
    else some ts

/-- `temp_subtrees` when the blocks are made (src/engine/fields/kdtree_mpi.rs:190, 211-239). -/
def subtrees (rnd : Rat → Rat) (root : Tile) (p : Nat) : Option (List Tile) :=
  if p ≠ 1 then
    passes rnd p p .horizontal [(split rnd root .vertical).1, (split rnd root .vertical).2] 2
  else some []

/-- The blocks made of the subtrees (src/engine/fields/kdtree_mpi.rs:242-257). -/
def blocksFrom : Nat → List Tile → List Block
  | _, [] => []
  | id, t :: ts => ⟨id, t.x, t.y, t.w, t.h⟩ :: blocksFrom (id + 1) ts

/-- `get_boundary_points(true)` and `get_block_boundary_points(_, true)` (src/engine/fields/kdtree_mpi.rs:325-377). -/
def boundaryPoints (rnd : Rat → Rat) (ow oh x y w h : F) : List (F × F) :=
  [(x, y), (add rnd x w, y), (x, add rnd y h), (add rnd x w, add rnd y h),
   (rem x ow, rem y oh), (rem (add rnd x w) ow, rem y oh), (rem x ow, rem (add rnd y h) oh),
   (rem (add rnd x w) ow, rem (add rnd y h) oh)]

/-- Two lists of points have one in common (src/engine/fields/kdtree_mpi.rs:271-276, 299-304, 434-439). -/
def sharePoint (ps qs : List (F × F)) : Bool := ps.any (fun p => qs.any (fun q => eqF p.1 q.1 && eqF p.2 q.2))

/-- `calculate_regions` (src/engine/fields/kdtree_mpi.rs:380-422). -/
def regions (rnd : Rat → Rat) (x y w h d : F) : List Block :=
  [⟨0, x, sub rnd (add rnd y h) d, w, d⟩, ⟨1, sub rnd (add rnd x w) d, y, d, h⟩, ⟨2, x, y, w, d⟩, ⟨3, x, y, d, h⟩]

/-- The members of `Kdtree` that `first_subdivision` sets (src/engine/fields/kdtree_mpi.rs:35-90). -/
structure Layout where
  rank : Nat
  size : Nat
  x : F
  y : F
  width : F
  height : F
  originalWidth : F
  originalHeight : F
  distance : F
  subtrees : List Block
  neighborTrees : List Nat
  haloRegions : List Block
  neighborsHaloRegions : List (List (Nat × Nat))

/-- The ids pushed to `neighbor_trees` by a process whose own box is `x y w h`
(src/engine/fields/kdtree_mpi.rs:269-280, 297-308). -/
def touching (rnd : Rat → Rat) (rank : Nat) (ow oh x y w h : F) (blocks : List Block) : List Nat :=
  (blocks.filter (fun b => b.id != rank &&
    sharePoint (boundaryPoints rnd ow oh x y w h) (boundaryPoints rnd ow oh b.x b.y b.width b.height))).map Block.id

/-- `calculate_neighbor_regions` (src/engine/fields/kdtree_mpi.rs:425-450): the pairs of one region. -/
def regionPairs (rnd : Rat → Rat) (rank : Nat) (ow oh : F) (blocks : List Block) (r : Block) : List (Nat × Nat) :=
  (blocks.filter (fun b => b.id != rank && sharePoint (boundaryPoints rnd ow oh r.x r.y r.width r.height)
    (boundaryPoints rnd ow oh b.x b.y b.width b.height))).map (fun b => (r.id, b.id))

/-- `calculate_neighbor_regions`: regions without neighbours are left out (src/engine/fields/kdtree_mpi.rs:425-450). -/
def neighborRegions (rnd : Rat → Rat) (rank : Nat) (ow oh : F) (blocks regs : List Block) : List (List (Nat × Nat)) :=
  (regs.map (regionPairs rnd rank ow oh blocks)).filter (fun l => !l.isEmpty)

/-- One round of the loop that gives rank 0 its size (src/engine/fields/kdtree_mpi.rs:260-265). -/
def ownSize (rank : Nat) (s : F × F) (b : Block) : F × F := if b.id = rank then (b.width, b.height) else s

/-- One round of the loop by which the other ranks take their box and find their neighbours
(src/engine/fields/kdtree_mpi.rs:291-310); the state is box and `neighbor_trees`. -/
def ownBox (rnd : Rat → Rat) (rank : Nat) (ow oh : F) (blocks : List Block) (s : Tile × List Nat) (b : Block) :
    Tile × List Nat :=
  if b.id = rank then
    (⟨b.x, b.y, b.width, b.height⟩, s.2 ++ touching rnd rank ow oh b.x b.y b.width b.height blocks)
  else s

/-- The box of a process and its `neighbor_trees`, given the blocks (src/engine/fields/kdtree_mpi.rs:260-310). -/
def boxAndNeighbors (rnd : Rat → Rat) (rank : Nat) (root : Tile) (blocks : List Block) : Tile × List Nat :=
  if rank = 0 then
    (⟨root.x, root.y, (blocks.foldl (ownSize 0) (root.w, root.h)).1, (blocks.foldl (ownSize 0) (root.w, root.h)).2⟩,
      touching rnd 0 root.w root.h root.x root.y (blocks.foldl (ownSize 0) (root.w, root.h)).1
        (blocks.foldl (ownSize 0) (root.w, root.h)).2 blocks)
  else blocks.foldl (ownBox rnd rank root.w root.h blocks) (root, [])

/-- The layout given box, neighbours and blocks (src/engine/fields/kdtree_mpi.rs:314-319). -/
def layoutOf (rnd : Rat → Rat) (rank size : Nat) (root : Tile) (d : F) (blocks : List Block) (s : Tile × List Nat) : Layout :=
  { rank := rank, size := size, x := s.1.x, y := s.1.y, width := s.1.w, height := s.1.h,
    originalWidth := root.w, originalHeight := root.h, distance := d, subtrees := blocks, neighborTrees := s.2,
    haloRegions := regions rnd s.1.x s.1.y s.1.w s.1.h d,
    neighborsHaloRegions := neighborRegions rnd rank root.w root.h blocks (regions rnd s.1.x s.1.y s.1.w s.1.h d) }

/-- `create_tree` and `first_subdivision` (src/engine/fields/kdtree_mpi.rs:171-319) at process `rank` of `size`; `id` is
the argument of `create_tree`, and `processors`, 0 until then, is `size`. The bags that `new` makes are in
`Verif.Model.MachineField`. -/
def createTree (rnd : Rat → Rat) (rank size id : Nat) (root : Tile) (d : F) : Option Layout :=
  if size = 1 then some (layoutOf rnd rank size root d [] (root, []))
  else match subtrees rnd root size with
    | none => none
    | some ts => some (layoutOf rnd rank size root d (blocksFrom id ts) (boxAndNeighbors rnd rank root (blocksFrom id ts)))

/-- The point is in the closed box of a block (src/engine/fields/kdtree_mpi.rs:500-503, 526-529). -/
def Block.contains (rnd : Rat → Rat) (b : Block) (p : PosF) : Bool :=
  le b.x p.x && le p.x (add rnd b.x b.width) && le b.y p.y && le p.y (add rnd b.y b.height)

/-- `get_block_by_location` (src/engine/fields/kdtree_mpi.rs:494-512). -/
def getBlockByLocation (rnd : Rat → Rat) (l : Layout) (p : PosF) : Option Nat :=
  if l.size = 1 then some 0 else (l.subtrees.find? (fun b => b.contains rnd p)).map Block.id

/-- The border to whose list `insert` adds an agent at `p` (src/engine/fields/kdtree_mpi.rs:525-534): the first halo region that
contains it. -/
def haloAt (rnd : Rat → Rat) (l : Layout) (p : PosF) : Option Nat :=
  (l.haloRegions.find? (fun r => r.contains rnd p)).map Block.id

end Verif.KdMachine
