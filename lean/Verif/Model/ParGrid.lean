import Verif.Model.DBDashMap
import Verif.Model.Grid

/-!
Model of the grids under the features `parallel` and `visualization`, where they are built on `DBDashMap`:
`DenseNumberGrid2D` (src/engine/fields/dense_number_grid_2d.rs:17-79), `SparseNumberGrid2D`
(src/engine/fields/sparse_number_grid_2d.rs:17-78), `DenseGrid2D` (src/engine/fields/dense_object_grid_2d.rs:18-172) and
`SparseGrid2D` (src/engine/fields/sparse_object_grid_2d.rs:19-201).

Simplifications: those of `DBDashMap`. `Eq` and `Hash` of an object compare an identity `ident o` only, as krABMaga asks of
agents; a map whose keys are objects is a map from identities to the object stored as key and its value. Each method is executed
alone, except in the last part, which interleaves concurrent placements. `none` is a panic.
-/

namespace Verif.ParGrid

open Grid DBDashMap

variable {T O I : Type} [DecidableEq I]

/-! ### Number grids -/

/-- `DenseNumberGrid2D` and `SparseNumberGrid2D` (src/engine/fields/dense_number_grid_2d.rs:19-23,
src/engine/fields/sparse_number_grid_2d.rs:19-23). -/
structure NGrid (T : Type) where
  locs : DB Loc T
  width : Int
  height : Int

/-- `new` of the dense grid (src/engine/fields/dense_number_grid_2d.rs:26-32). -/
def NGrid.newDense (cpus : Nat) (hash : Loc → Nat) (width height : Int) : NGrid T :=
  { locs := DBDashMap.new cpus hash, width := width.natAbs, height := height.natAbs }

/-- `new` of the sparse grid (src/engine/fields/sparse_number_grid_2d.rs:26-32). -/
def NGrid.newSparse (cpus : Nat) (hash : Loc → Nat) (width height : Int) : NGrid T :=
  { locs := DBDashMap.new cpus hash, width := width, height := height }

/-- `apply_to_all_values` (src/engine/fields/dense_number_grid_2d.rs:34-49, src/engine/fields/sparse_number_grid_2d.rs:34-49). -/
def NGrid.applyToAllValues (g : NGrid T) (closure : T → T) : GridOption → Option (NGrid T)
  | .READ => (DBDashMap.applyToAllValues g.locs closure).map (fun m => { g with locs := m })
  | .WRITE => some { g with locs := DBDashMap.applyToAllValuesWrite g.locs closure }
  | .READWRITE => some { g with locs := DBDashMap.applyToAllValuesReadWrite g.locs closure }

/-- `get_value` (src/engine/fields/dense_number_grid_2d.rs:51-56, src/engine/fields/sparse_number_grid_2d.rs:51-56). -/
def NGrid.getValue (g : NGrid T) (loc : Loc) : Option (Option T) := getRead g.locs loc

/-- `get_value_unbuffered` (src/engine/fields/dense_number_grid_2d.rs:58-63, src/engine/fields/sparse_number_grid_2d.rs:58-63). -/
def NGrid.getValueUnbuffered (g : NGrid T) (loc : Loc) : Option (Option T) := getWrite g.locs loc

/-- `set_value_location` (src/engine/fields/dense_number_grid_2d.rs:65-67, src/engine/fields/sparse_number_grid_2d.rs:65-67). -/
def NGrid.setValueLocation (g : NGrid T) (value : T) (loc : Loc) : Option (NGrid T) :=
  (DBDashMap.insert g.locs loc value).map (fun r => { g with locs := r.1 })

/-- `lazy_update` (src/engine/fields/dense_number_grid_2d.rs:72-74, src/engine/fields/sparse_number_grid_2d.rs:71-73). -/
def NGrid.lazyUpdate (g : NGrid T) : NGrid T := { g with locs := DBDashMap.lazyUpdate g.locs }

/-- `update` (src/engine/fields/dense_number_grid_2d.rs:76-78, src/engine/fields/sparse_number_grid_2d.rs:75-77). -/
def NGrid.update (g : NGrid T) : NGrid T := { g with locs := DBDashMap.update g.locs }

/-- The calls that change a number grid; there is no removal under these features (src/engine/fields/dense_number_grid_2d.rs:34-79). -/
inductive NOp (T : Type) where
  | set (v : T) (l : Loc)
  | update
  | lazyUpdate
  | apply (f : T → T) (o : GridOption)

/-- One call (src/engine/fields/dense_number_grid_2d.rs:34-79). -/
def NGrid.exec (g : NGrid T) : NOp T → Option (NGrid T)
  | .set v l => g.setValueLocation v l
  | .update => some g.update
  | .lazyUpdate => some g.lazyUpdate
  | .apply f o => g.applyToAllValues f o

/-- A program; the calls are listed newest first (src/engine/fields/dense_number_grid_2d.rs:34-79). -/
def NGrid.run (g : NGrid T) : List (NOp T) → Option (NGrid T)
  | [] => some g
  | op :: before => (NGrid.run g before).bind (fun g' => g'.exec op)

/-! ### Object grids -/

/-- `DenseGrid2D` and `SparseGrid2D` (src/engine/fields/dense_object_grid_2d.rs:20-25,
src/engine/fields/sparse_object_grid_2d.rs:21-26). -/
structure OGrid (O I : Type) where
  obj2loc : DB I (O × Loc)
  loc2objs : DB Loc (List O)
  width : Int
  height : Int

/-- `new` of the sparse grid (src/engine/fields/sparse_object_grid_2d.rs:29-36); the dense grid takes the absolute values
(src/engine/fields/dense_object_grid_2d.rs:28-35). A negative capacity would be a huge `usize`. -/
def OGrid.new (cpus : Nat) (hashO : I → Nat) (hashL : Loc → Nat) (width height : Int) : OGrid O I :=
  { obj2loc := DBDashMap.new cpus hashO, loc2objs := DBDashMap.new cpus hashL, width := width, height := height }

/-- `apply_to_all_keys` of `obj2loc`, one entry (src/utils/dbdashmap.rs:273-277). -/
def applyObject (ident : O → I) (closure : Loc → O → Option O) (db : DB I (O × Loc)) (e : I × (O × Loc)) :
    Option (DB I (O × Loc)) :=
  match closure e.2.2 e.2.1 with
  | none => some db
  | some x => (DBDashMap.remove db e.1).bind (fun r => (DBDashMap.insert r.1 (ident x) (x, e.2.2)).map Prod.fst)

/-- `apply_to_all_values` (src/engine/fields/dense_object_grid_2d.rs:37-53, src/engine/fields/sparse_object_grid_2d.rs:38-53): the
three options do the same. -/
def OGrid.applyToAllValues (g : OGrid O I) (ident : O → I) (closure : Loc → O → Option O) : GridOption → Option (OGrid O I)
  | .READ => (g.obj2loc.rShards.flatten.foldlM (applyObject ident closure) g.obj2loc).map (fun m => { g with obj2loc := m })
  | .WRITE => (g.obj2loc.rShards.flatten.foldlM (applyObject ident closure) g.obj2loc).map (fun m => { g with obj2loc := m })
  | .READWRITE => (g.obj2loc.rShards.flatten.foldlM (applyObject ident closure) g.obj2loc).map (fun m => { g with obj2loc := m })

/-- `get` (src/engine/fields/dense_object_grid_2d.rs:55-60, src/engine/fields/sparse_object_grid_2d.rs:68-73). -/
def OGrid.get (g : OGrid O I) (ident : O → I) (object : O) : Option (Option O) :=
  (getRead g.obj2loc (ident object)).map (fun r => r.map Prod.fst)

/-- An empty bag is answered by `None` (src/engine/fields/dense_object_grid_2d.rs:62-87). -/
def nonEmpty (bag : Option (List O)) : Option (List O) :=
  match bag with
  | some [] => none
  | b => b

/-- `get_objects` (src/engine/fields/dense_object_grid_2d.rs:62-73, src/engine/fields/sparse_object_grid_2d.rs:75-86). -/
def OGrid.getObjects (g : OGrid O I) (loc : Loc) : Option (Option (List O)) := (getRead g.loc2objs loc).map nonEmpty

/-- `get_objects_unbuffered` (src/engine/fields/dense_object_grid_2d.rs:75-86,
src/engine/fields/sparse_object_grid_2d.rs:87-98). -/
def OGrid.getObjectsUnbuffered (g : OGrid O I) (loc : Loc) : Option (Option (List O)) := (getWrite g.loc2objs loc).map nonEmpty

/-- `get_location` (src/engine/fields/dense_object_grid_2d.rs:88-93, src/engine/fields/sparse_object_grid_2d.rs:100-105). -/
def OGrid.getLocation (g : OGrid O I) (ident : O → I) (object : O) : Option (Option Loc) :=
  (getRead g.obj2loc (ident object)).map (fun r => r.map Prod.snd)

/-- `get_location_unbuffered` (src/engine/fields/dense_object_grid_2d.rs:95-100,
src/engine/fields/sparse_object_grid_2d.rs:107-112). -/
def OGrid.getLocationUnbuffered (g : OGrid O I) (ident : O → I) (object : O) : Option (Option Loc) :=
  (getWrite g.obj2loc (ident object)).map (fun r => r.map Prod.snd)

/-- `get_unbuffered` (src/engine/fields/sparse_object_grid_2d.rs:114-127); `expect` panics without a bag. -/
def OGrid.getUnbuffered (g : OGrid O I) (ident : O → I) (object : O) : Option (Option O) :=
  (getWrite g.obj2loc (ident object)).bind (fun r =>
    match r with
    | none => some none
    | some e =>
      (getWrite g.loc2objs e.2).bind (fun b =>
        match b with
        | none => none
        | some bag => some (bag.find? (fun x => decide (ident x = ident object)))))

/-- `get_empty_bags` (src/engine/fields/sparse_object_grid_2d.rs:55-66), on the cells given. -/
def emptyBags (db : DB Loc (List O)) : List Loc → Option (List Loc)
  | [] => some []
  | c :: cs =>
    (getRead db c).bind (fun b =>
      match b with
      | some _ => emptyBags db cs
      | none => (emptyBags db cs).map (fun r => c :: r))

/-- `get_empty_bags` (src/engine/fields/sparse_object_grid_2d.rs:55-66). -/
def OGrid.getEmptyBags (g : OGrid O I) : Option (List Loc) := emptyBags g.loc2objs (cells g.width g.height)

/-- The calls of `iter_objects` on the cells given (src/engine/fields/dense_object_grid_2d.rs:109-122,
src/engine/fields/sparse_object_grid_2d.rs:149-162). -/
def iterCells (db : DB Loc (List O)) : List Loc → Option (List (Loc × O))
  | [] => some []
  | c :: cs =>
    (getRead db c).bind (fun b =>
      match b with
      | some bag => (iterCells db cs).map (fun r => bag.map (fun o => (c, o)) ++ r)
      | none => iterCells db cs)

/-- The calls of `iter_objects` (src/engine/fields/dense_object_grid_2d.rs:102-123,
src/engine/fields/sparse_object_grid_2d.rs:142-163). -/
def OGrid.iterObjects (g : OGrid O I) : Option (List (Loc × O)) := iterCells g.loc2objs (cells g.width g.height)

/-- The loop of `get_random_empty_bag` (src/engine/fields/sparse_object_grid_2d.rs:131-139) over the locations drawn. -/
def randomLoop (db : DB Loc (List O)) : (draws : List Loc) → Draw
  | [] => .looping
  | d :: ds =>
    match getRead db d with
    | none => .panic
    | some (some _) => randomLoop db ds
    | some none => .returned (some d)

/-- `get_random_empty_bag` (src/engine/fields/sparse_object_grid_2d.rs:129-140). -/
def OGrid.getRandomEmptyBag (g : OGrid O I) (draws : List Loc) : Draw :=
  if g.width ≤ 0 ∨ g.height ≤ 0 then .panic else randomLoop g.loc2objs draws

/-- The first half of `remove_object` (src/engine/fields/dense_object_grid_2d.rs:126-132,
src/engine/fields/sparse_object_grid_2d.rs:166-172): the bag is that of the *published* location, taken from the *written* bags;
`expect` panics if there is none. -/
def OGrid.removeFromBag (g : OGrid O I) (ident : O → I) (object : O) : Option (DB Loc (List O)) :=
  (getRead g.obj2loc (ident object)).bind (fun r =>
    match r with
    | none => some g.loc2objs
    | some e =>
      (getWrite g.loc2objs e.2).bind (fun b =>
        match b with
        | none => none
        | some _ => modifyWrite g.loc2objs e.2 (fun bag => bag.filter (fun x => decide (ident x ≠ ident object)))))

/-- `remove_object` (src/engine/fields/dense_object_grid_2d.rs:125-134, src/engine/fields/sparse_object_grid_2d.rs:165-175). -/
def OGrid.removeObject (g : OGrid O I) (ident : O → I) (object : O) : Option (OGrid O I) :=
  (g.removeFromBag ident object).bind (fun bags =>
    (DBDashMap.remove g.obj2loc (ident object)).map (fun r => { g with loc2objs := bags, obj2loc := r.1 }))

/-- `remove_object_location` (src/engine/fields/dense_object_grid_2d.rs:136-145). -/
def OGrid.removeObjectLocation (g : OGrid O I) (ident : O → I) (object : O) (loc : Loc) : Option (OGrid O I) :=
  (modifyWrite g.loc2objs loc (fun bag => bag.filter (fun x => decide (ident x ≠ ident object)))).map (fun bags =>
    { g with loc2objs := bags })

/-- The bag after a placement in it (src/engine/fields/dense_object_grid_2d.rs:149-154). -/
def pushObject (ident : O → I) (object : O) (bag : List O) : List O :=
  bag.filter (fun x => decide (ident x ≠ ident object)) ++ [object]

/-- The first half of `set_object_location` (src/engine/fields/dense_object_grid_2d.rs:148-156,
src/engine/fields/sparse_object_grid_2d.rs:178-186). -/
def OGrid.putInBag (g : OGrid O I) (ident : O → I) (object : O) (loc : Loc) : Option (DB Loc (List O)) :=
  (getWrite g.loc2objs loc).bind (fun b =>
    match b with
    | some _ => modifyWrite g.loc2objs loc (pushObject ident object)
    | none => (DBDashMap.insert g.loc2objs loc [object]).map Prod.fst)

/-- `set_object_location` (src/engine/fields/dense_object_grid_2d.rs:147-158,
src/engine/fields/sparse_object_grid_2d.rs:177-188). -/
def OGrid.setObjectLocation (g : OGrid O I) (ident : O → I) (object : O) (loc : Loc) : Option (OGrid O I) :=
  (g.putInBag ident object loc).bind (fun bags =>
    (DBDashMap.insert g.obj2loc (ident object) (object, loc)).map (fun r => { g with loc2objs := bags, obj2loc := r.1 }))

/-- `lazy_update` (src/engine/fields/dense_object_grid_2d.rs:163-166, src/engine/fields/sparse_object_grid_2d.rs:192-195). -/
def OGrid.lazyUpdate (g : OGrid O I) : OGrid O I :=
  { g with obj2loc := DBDashMap.lazyUpdate g.obj2loc, loc2objs := DBDashMap.lazyUpdate g.loc2objs }

/-- `update` (src/engine/fields/dense_object_grid_2d.rs:168-171, src/engine/fields/sparse_object_grid_2d.rs:197-200). -/
def OGrid.update (g : OGrid O I) : OGrid O I :=
  { g with obj2loc := DBDashMap.update g.obj2loc, loc2objs := DBDashMap.update g.loc2objs }

/-- The calls that change an object grid (src/engine/fields/dense_object_grid_2d.rs:37-172). -/
inductive POp (O : Type) where
  | place (o : O) (l : Loc)
  | remove (o : O)
  | removeAt (o : O) (l : Loc)
  | update
  | lazyUpdate
  | apply (f : Loc → O → Option O) (opt : GridOption)

/-- One call (src/engine/fields/dense_object_grid_2d.rs:37-172). -/
def OGrid.exec (ident : O → I) (g : OGrid O I) : POp O → Option (OGrid O I)
  | .place o l => g.setObjectLocation ident o l
  | .remove o => g.removeObject ident o
  | .removeAt o l => g.removeObjectLocation ident o l
  | .update => some g.update
  | .lazyUpdate => some g.lazyUpdate
  | .apply f opt => g.applyToAllValues ident f opt

/-- A program; the calls are listed newest first (src/engine/fields/dense_object_grid_2d.rs:37-172). -/
def OGrid.run (ident : O → I) (g : OGrid O I) : List (POp O) → Option (OGrid O I)
  | [] => some g
  | op :: before => (OGrid.run ident g before).bind (fun g' => g'.exec ident op)

/-! ### Concurrent placements -/

/-- Where a thread is inside `set_object_location` (src/engine/fields/dense_object_grid_2d.rs:147-158): before `get_write`; after
`get_write` answered `None` and released the lock; after the bag was written; after `obj2loc.insert`. -/
inductive Pc where
  | start
  | missing
  | placed
  | done
  deriving DecidableEq, Repr

/-- A thread placing `object` at `loc` (src/engine/fields/dense_object_grid_2d.rs:147-160). -/
structure Thread (O : Type) where
  object : O
  loc : Loc
  pc : Pc
  deriving DecidableEq

/-- The grid and the threads (src/engine/fields/dense_object_grid_2d.rs:147-160). -/
structure Conc (O I : Type) where
  grid : OGrid O I
  threads : List (Thread O)

/-- One atomic section of a thread: what it does while it holds the lock of a shard
(src/engine/fields/dense_object_grid_2d.rs:148-157, src/utils/dbdashmap.rs:92-101, 133-147). In the arm `Some` the lock is held until the object is
in the bag; in the arm `None` it is released before `insert` takes it again. -/
def threadStep (ident : O → I) (g : OGrid O I) (t : Thread O) : Option (OGrid O I × Pc) :=
  match t.pc with
  | .start =>
    (getWrite g.loc2objs t.loc).bind (fun b =>
      match b with
      | some _ => (modifyWrite g.loc2objs t.loc (pushObject ident t.object)).map (fun m => ({ g with loc2objs := m }, .placed))
      | none => some (g, .missing))
  | .missing => (DBDashMap.insert g.loc2objs t.loc [t.object]).map (fun r => ({ g with loc2objs := r.1 }, .placed))
  | .placed => (DBDashMap.insert g.obj2loc (ident t.object) (t.object, t.loc)).map (fun r => ({ g with obj2loc := r.1 }, .done))
  | .done => some (g, .done)

/-- The thread number `i` makes a step (src/engine/fields/dense_object_grid_2d.rs:147-160). -/
def Conc.step (ident : O → I) (c : Conc O I) (i : Nat) : Option (Conc O I) :=
  match c.threads[i]? with
  | none => some c
  | some t => (threadStep ident c.grid t).map (fun r => { grid := r.1, threads := c.threads.set i { t with pc := r.2 } })

/-- The threads make steps in the order of the schedule (src/engine/fields/dense_object_grid_2d.rs:147-160; the parallel step is
src/engine/schedule.rs:127-221). -/
def Conc.runAll (ident : O → I) (c : Conc O I) : List Nat → Option (Conc O I)
  | [] => some c
  | i :: is => (c.step ident i).bind (fun c' => c'.runAll ident is)

end Verif.ParGrid
