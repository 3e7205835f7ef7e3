import Verif.Spec.Borrows

/-!
Which `RefCell`s the fields borrow, and for how long: the fields of builds without the features `parallel` and
`visualization`, `HNetwork`, `nodes2id` of the parallel `Network`, and `Kdtree`. Only that is modelled here; the values are in
the other models. How often a loop runs and where a function returns early are parameters. The two buffers of a field
are different cells (`read` is 0 or 1 and `write` the other one).
-/

namespace Verif.Borrows

/-- The cells of a field: `locs`/`bags` of the grids and `nagents` of `Field2D` (field_2d.rs:284-300,
sparse_object_grid_2d.rs:211-221, dense_object_grid_2d.rs:186-196, dense_number_grid_2d.rs:97-104,
sparse_number_grid_2d.rs:96-103) and of `Kdtree` (kdtree_mpi.rs:51-53); `edges`, `nodes2id` and `id2nodes` of `Network` (network.rs:610-629) and, as
`redges` and `rid2nodes` for the reading sides, of `HNetwork` (hnetwork.rs:114-125). The parallel `Network` has
`nodes2id` only (network.rs:86), `HNetwork` has one `nodes2id`: both are `idsW`. -/
inductive Part where
  | locsR
  | locsW
  | nagents
  | edgesR
  | edgesW
  | idsR
  | idsW
  | nodesR
  | nodesW
deriving DecidableEq

structure Cell where
  field : Nat
  part : Part
deriving DecidableEq

abbrev Trace := List (Act Cell)

/-- `let guard = cell.borrow(); body` up to the end of the scope of the guard. -/
def shared (f : Nat) (p : Part) (body : Trace) : Trace := .borrow ⟨f, p⟩ :: (body ++ [.release ⟨f, p⟩])

/-- The same with `borrow_mut`. -/
def excl (f : Nat) (p : Part) (body : Trace) : Trace := .borrowMut ⟨f, p⟩ :: (body ++ [.release ⟨f, p⟩])

/-- `n` times the same. -/
def times (n : Nat) (t : Trace) : Trace := (List.replicate n t).flatten

/-! ### Grids and `Field2D` -/

/-- The functions of grids and `Field2D` that take `&self` and no closure. -/
inductive GridCall where
  /-- everything that looks at the published state -/
  | get (n : Nat)
  /-- `get_neighbors_within_relax_distance` of `Field2D` -/
  | relaxed (n : Nat)
  /-- the `…_unbuffered` functions -/
  | getUnbuffered
  /-- setting and removing in the four grids -/
  | set
  /-- `set_object_location` of `Field2D`; `counting` is `!density_estimation_check` -/
  | fieldSet (counting : Bool)
  /-- `remove_object_location` of `Field2D` and `Kdtree` -/
  | fieldRemove (occupied counting : Bool)

def GridCall.trace (f : Nat) : GridCall → Trace
  -- one borrow: field_2d.rs:547, 806; sparse_object_grid_2d.rs:347, 422; dense_object_grid_2d.rs:430, 510;
  -- sparse_number_grid_2d.rs:341, 405; dense_number_grid_2d.rs:218, 352. One for each cell looked at:
  -- field_2d.rs:429, 732; kdtree_mpi.rs:673, 839; sparse_object_grid_2d.rs:487, 527; dense_object_grid_2d.rs:363;
  -- sparse_number_grid_2d.rs:280, 311; dense_number_grid_2d.rs:295
  | .get n => times n (shared f .locsR [])
  -- field_2d.rs:509: mutable, although nothing is changed
  | .relaxed n => times n (excl f .locsR [])
  -- field_2d.rs:580; sparse_object_grid_2d.rs:387, 451; dense_object_grid_2d.rs:472, 551;
  -- sparse_number_grid_2d.rs:375, 430; dense_number_grid_2d.rs:256, 378
  | .getUnbuffered => shared f .locsW []
  -- sparse_object_grid_2d.rs:649, 691; dense_object_grid_2d.rs:690, 731; sparse_number_grid_2d.rs:454, 481;
  -- dense_number_grid_2d.rs:494, 527
  | .set => excl f .locsW []
  -- field_2d.rs:838-846
  | .fieldSet counting => excl f .locsW (if counting then excl f .nagents [] else [])
  -- field_2d.rs:885-898, kdtree_mpi.rs:562-575
  | .fieldRemove occupied counting =>
    excl f .locsW (if occupied then if counting then excl f .nagents [] else [] else [])

/-- `update`, `lazy_update` and the insertions of `Kdtree`. They take `&mut self`, so no closure over the same field can call
them. -/
inductive GridUpdate where
  | sparseLazy
  | sparse
  | denseLazy
  | denseNumbers
  | denseObjects (n : Nat)
  | fieldFirst
  | fieldLater
  | treeInsert (counting : Bool)
  | treeInsertRead (counting : Bool)

def GridUpdate.trace (f : Nat) : GridUpdate → Trace
  -- sparse_object_grid_2d.rs:705-709, sparse_number_grid_2d.rs:489-493
  | .sparseLazy => excl f .locsW []
  -- sparse_object_grid_2d.rs:711-719, sparse_number_grid_2d.rs:495-503
  | .sparse => excl f .locsR (shared f .locsW [] ++ excl f .locsW [])
  -- dense_object_grid_2d.rs:743-751, dense_number_grid_2d.rs:537-551
  | .denseLazy => excl f .locsW []
  -- dense_number_grid_2d.rs:553-565
  | .denseNumbers => excl f .locsW (excl f .locsR [])
  -- dense_object_grid_2d.rs:753-765: once for each cell
  | .denseObjects n => times n (excl f .locsW (excl f .locsR []))
  -- field_2d.rs:909-914, kdtree_mpi.rs:866-873
  | .fieldFirst => excl f .nagents []
  -- field_2d.rs:915-920, kdtree_mpi.rs:874-879
  | .fieldLater => excl f .locsW []
  -- kdtree_mpi.rs:519-539
  | .treeInsert counting => excl f .locsW (if counting then excl f .nagents [] else [])
  -- kdtree_mpi.rs:546-555
  | .treeInsertRead counting => excl f .locsR (if counting then excl f .nagents [] else [])

/-! ### Networks -/

/-- The functions of `Network` (n…), `HNetwork` (h…) and of the parallel `Network` (p…), with where they return early
and how often loops run. -/
inductive NetCall where
  | nAddEdge (found : Bool)
  | nAddNode
  | nGetEdge (found : Bool)
  | nGetEdges (found : Bool)
  | nGetObject
  | nGetId
  | nAttach (edges : List Bool)
  | nRemoveAll
  | nRemoveEdge (found : Bool)
  | nRemoveAround (found : Bool) (edges : List Bool)
  | nRemoveNode (found published : Bool) (edges edges' : List Bool)
  | nUpdateNode
  | nUpdate
  | nDisplay (pairs : List Bool)
  | hAddEdge (found : Bool)
  | hAddNode
  | hGetEdge (found : Bool)
  | hGetEdges (found : Bool)
  | hGetObject
  | hGetId
  | hRemoveAll
  | hRemoveEdge (found : Bool)
  | hRemoveObject (found published : Bool) (edges : Nat)
  | hUpdateNode
  | hUpdate
  | hLazyUpdate
  | pAddEdge
  | pAddNode
  | pGet
  | pAddProbEdge (keys choices : Nat)
  | pAttach (edges : Nat)
  | pRemoveEdge
  | pRemoveAround (edges : Nat)
  | pRemoveNode (found : Bool) (edges edges' : Nat)
  | pUpdateNode (found : Bool)

/-- network.rs:741-781. -/
def nAddEdgeB (f : Nat) (found : Bool) : Trace := excl f .idsW (if found then excl f .edgesW [] else [])

/-- network.rs:870-899. -/
def nGetEdgeB (f : Nat) (found : Bool) : Trace :=
  shared f .idsR (shared f .nodesR (if found then shared f .edgesR [] else []))

/-- network.rs:1314-1347. -/
def nRemoveEdgeB (f : Nat) (found : Bool) : Trace := shared f .idsR (if found then excl f .edgesW [] else [])

/-- network.rs:1404-1426 and 1477-1499: both maps stay borrowed while `remove_edge` is called. -/
def nRemoveAroundB (f : Nat) (found : Bool) (edges : List Bool) : Trace :=
  shared f .nodesW (shared f .idsR (if found then edges.flatMap (nRemoveEdgeB f) else []))

/-- network.rs:1631-1643 and 1645-1658. -/
def nUpdateB (f : Nat) : Trace :=
  excl f .edgesW (excl f .edgesR (excl f .nodesW (excl f .nodesR (excl f .idsW (excl f .idsR [])))))

/-- hnetwork.rs:306-317. -/
def hGetEdgesB (f : Nat) (found : Bool) : Trace := shared f .idsW (if found then shared f .edgesR [] else [])

/-- network.rs:462-483, 485-505: the borrow of 465 or 488 lives while `remove_edge` borrows again at 424. -/
def pRemoveAroundB (f : Nat) (edges : Nat) : Trace := shared f .idsW (times edges (shared f .idsW []))

def NetCall.trace (f : Nat) : NetCall → Trace
  | .nAddEdge found => nAddEdgeB f found
  -- network.rs:800-816
  | .nAddNode => excl f .idsW (excl f .nodesW (excl f .edgesW []))
  | .nGetEdge found => nGetEdgeB f found
  -- network.rs:963-974
  | .nGetEdges found => shared f .idsR (if found then shared f .edgesR [] else [])
  -- network.rs:1000-1003
  | .nGetObject => shared f .nodesR []
  -- network.rs:1031-1033
  | .nGetId => shared f .idsR []
  -- network.rs:1062-1127 and 1179-1240: `id2nodes` stays mutably borrowed while edges are removed and added
  | .nAttach edges => excl f .nodesW (excl f .edgesW [] ++ edges.flatMap (nAddEdgeB f)) ++ nUpdateB f
  -- network.rs:1266-1269
  | .nRemoveAll => excl f .edgesW []
  | .nRemoveEdge found => nRemoveEdgeB f found
  | .nRemoveAround found edges => nRemoveAroundB f found edges
  -- network.rs:1548-1582
  | .nRemoveNode found published edges edges' =>
    excl f .idsW [] ++
    if found then
      nRemoveAroundB f published edges ++
      if published then
        excl f .edgesW [] ++ nRemoveAroundB f true edges' ++ excl f .edgesW [] ++ excl f .nodesW (excl f .idsW [])
      else []
    else []
  -- network.rs:1614-1625
  | .nUpdateNode => excl f .idsW (excl f .nodesW [])
  | .nUpdate => nUpdateB f
  -- network.rs:633-661
  | .nDisplay pairs => shared f .nodesR (pairs.flatMap (nGetEdgeB f))
  -- hnetwork.rs:162-196
  | .hAddEdge found => excl f .idsW (if found then excl f .edgesW [] else [])
  -- hnetwork.rs:213-229
  | .hAddNode => excl f .idsW (excl f .nodesW (excl f .edgesW []))
  -- hnetwork.rs:254-284
  | .hGetEdge found => shared f .idsW (if found then shared f .edgesR [] else [])
  | .hGetEdges found => hGetEdgesB f found
  -- hnetwork.rs:333-335: mutable, although nothing is changed
  | .hGetObject => excl f .nodesR []
  -- hnetwork.rs:353-355
  | .hGetId => shared f .idsW []
  -- hnetwork.rs:383-386
  | .hRemoveAll => excl f .edgesW []
  -- hnetwork.rs:413-456
  | .hRemoveEdge found => shared f .idsW (if found then excl f .edgesW [] else [])
  -- hnetwork.rs:526-549, with `remove_edge_with_hedge` (476-500) for each edge
  | .hRemoveObject found published edges =>
    excl f .idsW [] ++
    if found then
      hGetEdgesB f true ++ (if published then times edges (excl f .edgesW []) else []) ++
      excl f .nodesW (excl f .idsW [])
    else []
  -- hnetwork.rs:580-590
  | .hUpdateNode => excl f .idsW (excl f .nodesW [])
  -- hnetwork.rs:600-609
  | .hUpdate => shared f .edgesW (excl f .edgesR (shared f .nodesW (excl f .nodesR [])))
  -- hnetwork.rs:611-620
  | .hLazyUpdate => shared f .edgesW (excl f .edgesR (excl f .nodesW (excl f .nodesR [])))
  -- network.rs:102-142
  | .pAddEdge => excl f .idsW []
  -- network.rs:144-157
  | .pAddNode => excl f .idsW []
  -- network.rs:193-237
  | .pGet => shared f .idsW []
  -- network.rs:161-191
  | .pAddProbEdge keys choices => times keys (shared f .idsW []) ++ times choices (excl f .idsW [])
  -- network.rs:251-310, 317-382
  | .pAttach edges => times edges (excl f .idsW [])
  -- network.rs:423-460
  | .pRemoveEdge => shared f .idsW []
  | .pRemoveAround edges => pRemoveAroundB f edges
  -- network.rs:507-538
  | .pRemoveNode found edges edges' =>
    excl f .idsW [] ++
    if found then pRemoveAroundB f edges ++ pRemoveAroundB f edges' ++ excl f .idsW [] else []
  -- network.rs:540-561
  | .pUpdateNode found => shared f .idsW [] ++ if found then excl f .idsW [] else []

/-! ### Functions that call a closure -/

inductive GridKind where
  | denseNumber
  | sparseNumber
  | denseObject
  | sparseObject
deriving DecidableEq

inductive Opt where
  | read
  | write
  | readWrite
deriving DecidableEq

/-- The functions with a closure. `unbuffered` tells `iter_objects_unbuffered` from `iter_objects` and the same for
values. -/
inductive Over where
  | iterSparse (unbuffered : Bool)
  | iterDenseObjects (unbuffered : Bool)
  | iterField (unbuffered : Bool)
  | iterDenseValues (unbuffered : Bool)
  | apply (g : GridKind) (o : Opt)

def side (unbuffered : Bool) : Part := if unbuffered then .locsW else .locsR

/-- What is borrowed around `body`, the calls the closure makes: for the sparse grids and `apply_to_all_values` one
guard lives during the whole loop and `body` is what all calls of the closure do together; for `iterDenseObjects`,
`iterField` and `iterDenseValues` there is a guard for each cell and `body` is what the closure does there. -/
def Over.trace (f : Nat) (body : Trace) : Over → Trace
  -- sparse_object_grid_2d.rs:561-576, 601-616; sparse_number_grid_2d.rs:204-218, 239-253
  | .iterSparse u => shared f (side u) body
  -- dense_object_grid_2d.rs:589-609, 634-654
  | .iterDenseObjects u => shared f (side u) body
  -- field_2d.rs:619-642, 677-700
  | .iterField u => shared f (side u) body
  -- dense_number_grid_2d.rs:404-425, 449-470: the value is copied out, the guard is gone when the closure is called
  | .iterDenseValues u => shared f (side u) [] ++ body
  -- dense_number_grid_2d.rs:161, sparse_number_grid_2d.rs:154, dense_object_grid_2d.rs:264, sparse_object_grid_2d.rs:284
  | .apply _ .read => excl f .locsR body
  -- dense_number_grid_2d.rs:170-171, dense_object_grid_2d.rs:279-280
  | .apply .denseNumber .write => excl f .locsW (shared f .locsR body)
  | .apply .denseObject .write => excl f .locsW (shared f .locsR body)
  -- sparse_number_grid_2d.rs:160, sparse_object_grid_2d.rs:292
  | .apply .sparseNumber .write => excl f .locsW body
  | .apply .sparseObject .write => excl f .locsW body
  -- dense_number_grid_2d.rs:181-182
  | .apply .denseNumber .readWrite => excl f .locsW (excl f .locsR body)
  -- dense_object_grid_2d.rs:294-295
  | .apply .denseObject .readWrite => excl f .locsW (shared f .locsR body)
  -- sparse_number_grid_2d.rs:167-168, sparse_object_grid_2d.rs:302-303
  | .apply .sparseNumber .readWrite => shared f .locsR (excl f .locsW body)
  | .apply .sparseObject .readWrite => shared f .locsR (excl f .locsW body)

/-- A program of a user: calls one after the other, closures nested at will. -/
inductive Prog where
  | done
  | grid (f : Nat) (c : GridCall) (rest : Prog)
  | update (f : Nat) (c : GridUpdate) (rest : Prog)
  | net (f : Nat) (c : NetCall) (rest : Prog)
  | within (f : Nat) (o : Over) (body rest : Prog)

def Prog.trace : Prog → Trace
  | .done => []
  | .grid f c rest => c.trace f ++ rest.trace
  | .update f c rest => c.trace f ++ rest.trace
  | .net f c rest => c.trace f ++ rest.trace
  | .within f o body rest => o.trace f body.trace ++ rest.trace

/-- The fields a program uses. -/
def Prog.uses : Prog → List Nat
  | .done => []
  | .grid f _ rest => f :: rest.uses
  | .update f _ rest => f :: rest.uses
  | .net f _ rest => f :: rest.uses
  | .within f _ body rest => f :: (body.uses ++ rest.uses)

/-- No closure uses the field it is called by, also not in a closure inside it. -/
def Prog.Apart : Prog → Prop
  | .done => True
  | .grid _ _ rest => rest.Apart
  | .update _ _ rest => rest.Apart
  | .net _ _ rest => rest.Apart
  | .within f _ body rest => f ∉ body.uses ∧ body.Apart ∧ rest.Apart

end Verif.Borrows
