import Verif.Model.Field2D

/-!
Model of the distributed field `Kdtree` (src/engine/fields/kdtree_mpi.rs).

Simplifications: `f32` values are exact rationals (so corners that coincide on paper compare equal, which
rounding can spoil in the code); `none` is a panic; `world.rank()` and `world.size()` are the parameters `rank` and
`size`. MPI is modelled by what the calls mean: `send` of rank 0 hands the blocks to the `receive_vec` of the other
ranks, and the point-to-point messages of `message_exchange` arrive where they are addressed. The text printed is
left out. The bags are those of `Field2D` (Model/Field2D.lean), whose code they repeat with `toroidal` fixed to true.
-/

namespace Verif.KdTree

open Grid Torus Field2D

/-- `Axis` (src/engine/fields/kdtree_mpi.rs:29-32). -/
inductive Axis where
  | vertical
  | horizontal
  deriving DecidableEq

/-- The position and size of a tree in `temp_subtrees` (the other members of these trees are never read)
(src/engine/fields/kdtree_mpi.rs:211-239). -/
structure Tile where
  x : Rat
  y : Rat
  w : Rat
  h : Rat
  deriving DecidableEq

/-- `Block` (src/engine/fields/kdtree_mpi.rs:19-26). -/
structure Block where
  id : Nat
  x : Rat
  y : Rat
  width : Rat
  height : Rat
  deriving DecidableEq

/-- `split` (src/engine/fields/kdtree_mpi.rs:453-489). The horizontal case also halves the tree it is called on, which
the caller replaces by the first half. -/
def split (t : Tile) : Axis → Tile × Tile
  | .vertical => (⟨t.x, t.y, t.w / 2, t.h⟩, ⟨t.x + t.w / 2, t.y, t.w / 2, t.h⟩)
  | .horizontal => (⟨t.x, t.y, t.w, t.h / 2⟩, ⟨t.x, t.y + t.h / 2, t.w, t.h / 2⟩)

/-- One round of the inner loop (src/engine/fields/kdtree_mpi.rs:224-232) for `n`, on (`temp_subtrees`, `count`); a
`break` is taken again by the following rounds, since `count` does not change any more. -/
def passStep (p : Nat) (axis : Axis) (s : Option (List Tile × Nat)) (n : Nat) : Option (List Tile × Nat) :=
  match s with
  | none => none
  | some (ts, count) =>
    if count ≥ p then some (ts, count)
    else match ts[n * 2]? with
      | none => none
      | some t => some ((ts.set (n * 2) (split t axis).1).insertIdx (n * 2 + 1) (split t axis).2, count + 1)

/-- The inner loop; `temp_subtrees.len()` is taken before the first round (src/engine/fields/kdtree_mpi.rs:223-232). -/
def pass (p : Nat) (axis : Axis) (ts : List Tile) (count : Nat) : Option (List Tile × Nat) :=
  (List.range ts.length).foldl (passStep p axis) (some (ts, count))

/-- The axis of the next pass (src/engine/fields/kdtree_mpi.rs:233-237). -/
def Axis.other : Axis → Axis
  | .vertical => .horizontal
  | .horizontal => .vertical

/-- `while count < self.processors` (src/engine/fields/kdtree_mpi.rs:223-238). Every pass adds at least one subtree, so
`fuel = processors` passes suffice (`C57_tiles` shows the list complete). -/
def passes (p : Nat) : Nat → Axis → List Tile → Nat → Option (List Tile)
  | 0, _, ts, _ => some ts
  | fuel + 1, axis, ts, count =>
    if count < p then
      match pass p axis ts count with
      | none => none
      | some (ts', count') => passes p fuel axis.other ts' count'
    else some ts

/-- `temp_subtrees` when the blocks are made (src/engine/fields/kdtree_mpi.rs:190, 211-239). -/
def subtrees (root : Tile) (p : Nat) : Option (List Tile) :=
  if p ≠ 1 then
    passes p p .horizontal [(split root .vertical).1, (split root .vertical).2] 2
  else some []

/-- The blocks made of the subtrees (src/engine/fields/kdtree_mpi.rs:242-257). -/
def blocksFrom : Nat → List Tile → List Block
  | _, [] => []
  | id, t :: ts => ⟨id, t.x, t.y, t.w, t.h⟩ :: blocksFrom (id + 1) ts

/-- `get_boundary_points(true)` and `get_block_boundary_points(_, true)` (src/engine/fields/kdtree_mpi.rs:325-377). -/
def boundaryPoints (ow oh x y w h : Rat) : List (Rat × Rat) :=
  [(x, y), (x + w, y), (x, y + h), (x + w, y + h),
   (fmod x ow, fmod y oh), (fmod (x + w) ow, fmod y oh), (fmod x ow, fmod (y + h) oh), (fmod (x + w) ow, fmod (y + h) oh)]

/-- Two lists of points have one in common (src/engine/fields/kdtree_mpi.rs:425-450). -/
def sharePoint (ps qs : List (Rat × Rat)) : Bool := ps.any (fun p => qs.any (fun q => p == q))

/-- `calculate_regions` (src/engine/fields/kdtree_mpi.rs:380-422). -/
def regions (x y w h d : Rat) : List Block :=
  [⟨0, x, y + h - d, w, d⟩, ⟨1, x + w - d, y, d, h⟩, ⟨2, x, y, w, d⟩, ⟨3, x, y, d, h⟩]

/-- The members of `Kdtree` that `first_subdivision` sets (src/engine/fields/kdtree_mpi.rs:35-90). -/
structure Layout where
  rank : Nat
  size : Nat
  x : Rat
  y : Rat
  width : Rat
  height : Rat
  originalWidth : Rat
  originalHeight : Rat
  distance : Rat
  subtrees : List Block
  neighborTrees : List Nat
  haloRegions : List Block
  neighborsHaloRegions : List (List (Nat × Nat))

/-- The ids pushed to `neighbor_trees` by a process whose own box is `x y w h`
(src/engine/fields/kdtree_mpi.rs:269-280, 297-308). -/
def touching (rank : Nat) (ow oh x y w h : Rat) (blocks : List Block) : List Nat :=
  (blocks.filter (fun b => b.id != rank &&
    sharePoint (boundaryPoints ow oh x y w h) (boundaryPoints ow oh b.x b.y b.width b.height))).map Block.id

/-- `calculate_neighbor_regions` (src/engine/fields/kdtree_mpi.rs:425-450): the pairs of one region. -/
def regionPairs (rank : Nat) (ow oh : Rat) (blocks : List Block) (r : Block) : List (Nat × Nat) :=
  (blocks.filter (fun b => b.id != rank && sharePoint (boundaryPoints ow oh r.x r.y r.width r.height)
    (boundaryPoints ow oh b.x b.y b.width b.height))).map (fun b => (r.id, b.id))

/-- `calculate_neighbor_regions`: regions without neighbours are left out (src/engine/fields/kdtree_mpi.rs:425-450). -/
def neighborRegions (rank : Nat) (ow oh : Rat) (blocks regs : List Block) : List (List (Nat × Nat)) :=
  (regs.map (regionPairs rank ow oh blocks)).filter (fun l => !l.isEmpty)

/-- One round of the loop that gives rank 0 its size (src/engine/fields/kdtree_mpi.rs:260-265). -/
def ownSize (rank : Nat) (s : Rat × Rat) (b : Block) : Rat × Rat := if b.id = rank then (b.width, b.height) else s

/-- One round of the loop by which the other ranks take their box and find their neighbours
(src/engine/fields/kdtree_mpi.rs:291-310); the state is box and `neighbor_trees`. -/
def ownBox (rank : Nat) (ow oh : Rat) (blocks : List Block) (s : Tile × List Nat) (b : Block) : Tile × List Nat :=
  if b.id = rank then (⟨b.x, b.y, b.width, b.height⟩, s.2 ++ touching rank ow oh b.x b.y b.width b.height blocks) else s

/-- The box of a process and its `neighbor_trees`, given the blocks (src/engine/fields/kdtree_mpi.rs:260-310). -/
def boxAndNeighbors (rank : Nat) (root : Tile) (blocks : List Block) : Tile × List Nat :=
  if rank = 0 then
    (⟨root.x, root.y, (blocks.foldl (ownSize 0) (root.w, root.h)).1, (blocks.foldl (ownSize 0) (root.w, root.h)).2⟩,
      touching 0 root.w root.h root.x root.y (blocks.foldl (ownSize 0) (root.w, root.h)).1
        (blocks.foldl (ownSize 0) (root.w, root.h)).2 blocks)
  else blocks.foldl (ownBox rank root.w root.h blocks) (root, [])

/-- The layout given box, neighbours and blocks (src/engine/fields/kdtree_mpi.rs:314-319). -/
def layoutOf (rank size : Nat) (root : Tile) (d : Rat) (blocks : List Block) (s : Tile × List Nat) : Layout :=
  { rank := rank, size := size, x := s.1.x, y := s.1.y, width := s.1.w, height := s.1.h,
    originalWidth := root.w, originalHeight := root.h, distance := d, subtrees := blocks, neighborTrees := s.2,
    haloRegions := regions s.1.x s.1.y s.1.w s.1.h d,
    neighborsHaloRegions := neighborRegions rank root.w root.h blocks (regions s.1.x s.1.y s.1.w s.1.h d) }

/-- `create_tree` and `first_subdivision` (src/engine/fields/kdtree_mpi.rs:171-319) at process `rank` of `size`; `id` is
the argument of `create_tree`, and `processors`, 0 until then, is `size`. -/
def createTree (rank size id : Nat) (root : Tile) (d : Rat) : Option Layout :=
  if size = 1 then some (layoutOf rank size root d [] (root, []))
  else match subtrees root size with
    | none => none
    | some ts => some (layoutOf rank size root d (blocksFrom id ts) (boxAndNeighbors rank root (blocksFrom id ts)))

/-- The point is in the closed box of a block (src/engine/fields/kdtree_mpi.rs:500-503, 526-529). -/
def Block.contains (b : Block) (p : Pos) : Bool :=
  decide (b.x ≤ p.x ∧ p.x ≤ b.x + b.width ∧ b.y ≤ p.y ∧ p.y ≤ b.y + b.height)

/-- `get_block_by_location` (src/engine/fields/kdtree_mpi.rs:494-512). -/
def getBlockByLocation (l : Layout) (p : Pos) : Option Nat :=
  if l.size = 1 then some 0 else (l.subtrees.find? (fun b => b.contains p)).map Block.id

/-- The tree of a process: layout, bags, and `neighbors`, `prec_neighbors`, `agents_to_send`, `received_neighbors`
(src/engine/fields/kdtree_mpi.rs:35-90). -/
structure Tree (O : Type) where
  layout : Layout
  bags : Field O
  neighbors : List (List O)
  precNeighbors : List (List O)
  agentsToSend : List (List O)
  receivedNeighbors : List O

variable {O : Type} [BEq O]

/-- The tree `create_tree` returns; the bags were made by `new` for the whole field
(src/engine/fields/kdtree_mpi.rs:111-185). -/
def Tree.create (rank size id : Nat) (root : Tile) (disc d : Rat) : Option (Tree O) :=
  (createTree rank size id root d).map (fun l =>
    { layout := l, bags := Field2D.new root.w root.h disc true, neighbors := List.replicate 4 [],
      precNeighbors := [], agentsToSend := if size = 1 then [] else List.replicate size [],
      receivedNeighbors := [] })

/-- The loop over the halo regions in `insert` (src/engine/fields/kdtree_mpi.rs:525-534): the agent is pushed for the
first region that contains it; the index panics out of range. -/
def pushHalo (agent : O) (p : Pos) : List Block → List (List O) → Option (List (List O))
  | [], ns => some ns
  | r :: rs, ns =>
    if r.contains p then
      match ns[r.id]? with
      | none => none
      | some l => some (ns.set r.id (l ++ [agent]))
    else pushHalo agent p rs ns

/-- `insert` (src/engine/fields/kdtree_mpi.rs:519-539). -/
def insert (t : Tree O) (agent : O) (p : Pos) : Option (Tree O) :=
  match setObjectLocation t.bags agent p with
  | none => none
  | some f => (pushHalo agent p t.layout.haloRegions t.neighbors).map (fun ns => { t with bags := f, neighbors := ns })

/-- `insert_read` (src/engine/fields/kdtree_mpi.rs:546-555). -/
def insertRead (t : Tree O) (agent : O) (p : Pos) : Option (Tree O) :=
  match vecGet t.bags.rbags t.bags.dh (discretize t.bags.discretization p) with
  | none => none
  | some b =>
    (vecSet t.bags.rbags t.bags.dh (discretize t.bags.discretization p) (b ++ [agent])).map (fun v =>
      { t with bags := { t.bags with
                  rbags := v, nagents := if t.bags.densityCheck then t.bags.nagents else t.bags.nagents + 1 } })

/-- `remove_object_location` (src/engine/fields/kdtree_mpi.rs:562-575). It does not touch `neighbors`. -/
def removeObjectLocation (t : Tree O) (object : O) (p : Pos) : Option (Tree O) :=
  (Field2D.removeObjectLocation t.bags object p).map (fun f => { t with bags := f })

/-- `lazy_update` (src/engine/fields/kdtree_mpi.rs:858-880). -/
def lazyUpdate (t : Tree O) : Option (Tree O) :=
  (Field2D.lazyUpdate t.bags).map (fun f =>
    { t with bags := f, precNeighbors := t.neighbors, neighbors := List.replicate 4 [],
             agentsToSend := List.replicate t.layout.size [], receivedNeighbors := [] })

/-- `get_neighbors_within_distance` (src/engine/fields/kdtree_mpi.rs:630-696): the search of `Field2D`, on a torus, that
skips agents located exactly at `loc`. -/
def getNeighborsWithinDistance (t : Tree O) (locOf : O → Pos) (loc : Pos) (dist : Rat) : Option (List O) :=
  if dist ≤ 0 then some []
  else scan t.bags (fun b e => keepExact t.bags locOf loc dist b e && decide (locOf e ≠ loc))
    (searchCells t.bags loc dist)

/-- `get_distributed_neighbors_within_relax_distance` (src/engine/fields/kdtree_mpi.rs:797-849). -/
def getRelaxed (t : Tree O) (locOf : O → Pos) (loc : Pos) (distance : Rat) : Option (List O) :=
  if min distance t.layout.distance ≤ 0 then some []
  else scan t.bags (fun _ e => decide (locOf e ≠ loc)) (searchCells t.bags loc (min distance t.layout.distance))

/-- One round of filling `send_agent_vec[dest]` (src/engine/fields/kdtree_mpi.rs:718-722, 725-729): the agents of list
`pr.1` are appended if they are for `dest`; the index panics out of range. -/
def sendStep (agents : List (List O)) (dest : Nat) (acc : Option (List O)) (pr : Nat × Nat) : Option (List O) :=
  match acc, agents[pr.1]? with
  | some l, some as => some (if pr.2 = dest then l ++ as else l)
  | _, _ => none

/-- `send_agent_vec[dest]` with regions (src/engine/fields/kdtree_mpi.rs:716-723), for `agents_to_send = agents`. -/
def sentByRegions (pairs : List (Nat × Nat)) (agents : List (List O)) (dest : Nat) : Option (List O) :=
  pairs.foldl (sendStep agents dest) (some [])

/-- `send_agent_vec[dest]` without regions (src/engine/fields/kdtree_mpi.rs:724-730): the argument is not used, but the
member `agents_to_send`. -/
def sentByTree (neighborTrees : List Nat) (agentsToSend : List (List O)) (dest : Nat) : Option (List O) :=
  (neighborTrees.map (fun k => (k, k))).foldl (sendStep agentsToSend dest) (some [])

/-- What process `t` prepares for process `dest` in `message_exchange` (src/engine/fields/kdtree_mpi.rs:716-730). -/
def prepared (t : Tree O) (agents : List (List O)) (withRegions : Bool) (dest : Nat) : Option (List O) :=
  if withRegions then sentByRegions t.layout.neighborsHaloRegions.flatten agents dest
  else sentByTree t.layout.neighborTrees t.agentsToSend dest

/-- `vec[from]` after `message_exchange` (src/engine/fields/kdtree_mpi.rs:705-790) at `t`, where `src` is the tree of
process `from` and `agents` the argument it passes. The exchange of lengths and the transfer are with the processes of
`neighbor_trees` only; a process that lists a partner which does not list it waits for ever, which is `none` here. -/
def receivedFrom (t src : Tree O) (agents : List (List O)) (withRegions : Bool) : Option (List O) :=
  if src.layout.rank ∈ t.layout.neighborTrees ∧ t.layout.rank ∈ src.layout.neighborTrees then
    prepared src agents withRegions t.layout.rank
  else if src.layout.rank ∈ t.layout.neighborTrees ∨ t.layout.rank ∈ src.layout.neighborTrees then none
  else some []

end Verif.KdTree
