import Verif.Spec.Locks

/-!
Which mutexes the code takes and releases, in which order. Only that is modelled here: the values behind the mutexes
are in the other models. A function is the list of things it does to mutexes and channels. Where that depends on data
(which shard a key falls in, whether a key is present, how many entries a map has, which messages arrive), it is a
parameter, so that the theorems hold for every outcome. A guard lives from `lock()` to the end of its scope or
statement. A panic ends the program and is not modelled here, nor is the poisoning of a mutex.
-/

namespace Verif.Locks

/-- The maps behind the fields: `loc` is `floc` of `Field2D` and `obj2loc` of the object grids, `index` is `findex` of
`Field2D`, `bag` is `fbag` of `Field2D`, `loc2objs` of the object grids and `locs` of the number grids
(src/engine/fields/field_2d.rs:26-36, sparse_object_grid_2d.rs:20-26, dense_object_grid_2d.rs:19-26,
dense_number_grid_2d.rs:19-23, sparse_number_grid_2d.rs:19-23). `edges` and `nodes` are `edges` and `id2nodes` of
`Network` (network.rs:84-89). -/
inductive MapName where
  | loc
  | index
  | bag
  | edges
  | nodes
deriving DecidableEq

/-- The mutexes of the crate. `shard f m i` is shard `i` of the map `m` of field number `f`
(src/utils/dbdashmap.rs:22-27); `state`, `ids` and `events` belong to the parallel schedule
(src/engine/schedule.rs:40-55, 131); the next eight are those of the Simulation Terminal (src/lib.rs:678-737, 834-835);
`visState` and `visSchedule` are the wrappers of the visualization (src/visualization/wrappers.rs). -/
inductive Lock where
  | state
  | ids
  | events
  | data
  | csvSender
  | plotNames
  | logs
  | descr
  | monitor
  | tuiOperation
  | tuiReps
  | visState
  | visSchedule
  | shard (f : Nat) (m : MapName) (i : Nat)
deriving DecidableEq

/-- A piece of a program. -/
abbrev Trace (E : Type) := List (Act Lock E)

variable {E : Type}

/-- `let guard = mutex.lock()…; body` up to the end of the scope of the guard. -/
def guarded (l : Lock) (body : Trace E) : Trace E := .take l :: (body ++ [.drop l])

/-! ### DBDashMap (src/utils/dbdashmap.rs). The published side `r_shards` has no mutex, so `get_read`,
`get_key_value`, `r_len`, `keys`, `values`, `is_empty_r` (lines 113-131, 177-199, 211-213) do nothing here, and
`lazy_update`, `merge_r_shards` (149-168) use `get_mut`, which does not lock. -/

/-- src/utils/dbdashmap.rs:92-101 (`insert`), `i` is the shard of the key. -/
def insertL (f : Nat) (m : MapName) (i : Nat) : Trace E := guarded (.shard f m i) []

/-- src/utils/dbdashmap.rs:103-111 (`remove`). -/
def removeL (f : Nat) (m : MapName) (i : Nat) : Trace E := guarded (.shard f m i) []

/-- `match map.get_write(key) { Some(guard) => body, None => other }`, src/utils/dbdashmap.rs:133-147 and the guard in
`RefMut`, src/utils/ref.rs:8-46: the shard stays locked while `body` runs; on `None` it is released before `other`. -/
def getWriteL (f : Nat) (m : MapName) (i : Nat) (found : Bool) (body other : Trace E) : Trace E :=
  if found then guarded (.shard f m i) body else guarded (.shard f m i) [] ++ other

/-- src/utils/dbdashmap.rs:170-175 (`len`), 201-205 (`clear`), 217-225 (`update`) and the loop of `w_keys` (284-289):
the shards are locked one after the other. -/
def eachShardL (f : Nat) (m : MapName) (n : Nat) : Trace E :=
  (List.range n).flatMap fun i => guarded (.shard f m i) []

/-- src/utils/dbdashmap.rs:227-236 (`apply_to_all_values`): for each published entry the closure is called first, its
result is inserted afterwards. `cs` has the shard of each key and what the closure does. -/
def applyReadL (f : Nat) (m : MapName) (cs : List (Nat × Trace E)) : Trace E :=
  cs.flatMap fun c => c.2 ++ insertL f m c.1

/-- src/utils/dbdashmap.rs:237-248 (`apply_to_all_values_write`): the guard of the `for` lives while the closure is
called on all entries of the shard. `cs i` is what the closure does on the entries of shard `i`. -/
def applyWriteL (f : Nat) (m : MapName) (n : Nat) (cs : Nat → List (Trace E)) : Trace E :=
  (List.range n).flatMap fun i => guarded (.shard f m i) (cs i).flatten

/-- src/utils/dbdashmap.rs:249-265 (`apply_to_all_values_read_write`): one guard per entry, held while the closure is
called. -/
def applyReadWriteL (f : Nat) (m : MapName) (n : Nat) (cs : Nat → List (Trace E)) : Trace E :=
  (List.range n).flatMap fun i => (cs i).flatMap fun c => guarded (.shard f m i) c

/-- src/utils/dbdashmap.rs:267-280 (`apply_to_all_keys`): the closure is called without a guard, then the old key is
removed and the new one inserted if the closure gave one. `cs` has the shard of the old key, what the closure does, and
the shard of the new key. -/
def applyKeysL (f : Nat) (m : MapName) (cs : List (Nat × Trace E × Option Nat)) : Trace E :=
  cs.flatMap fun c => c.2.1 ++
    match c.2.2 with
    | some j => removeL f m c.1 ++ insertL f m j
    | none => []

/-! ### The fields under the feature `parallel` -/

/-- The calls on fields that take no closure. `found` tells whether the key is in the written map. -/
inductive Call where
  /-- any function that looks at published values only, and `lazy_update` -/
  | published
  | fieldLocationUnbuffered (f i : Nat)
  | fieldGetUnbuffered (f i j : Nat) (found : Bool)
  | fieldSet (f i j k : Nat) (found : Bool)
  | fieldUpdate (f n : Nat)
  | objectsUnbuffered (f j : Nat) (found : Bool)
  | locationUnbuffered (f i : Nat) (found : Bool)
  | sparseGetUnbuffered (f i j : Nat) (found : Bool)
  | removeObject (f i j : Nat) (found : Bool)
  | removeObjectLocation (f j : Nat) (found : Bool)
  | setObject (f i j : Nat) (found : Bool)
  | gridUpdate (f n : Nat)
  | valueUnbuffered (f j : Nat) (found : Bool)
  | setValue (f j : Nat)
  | numberUpdate (f n : Nat)
  | netAddEdge (f i j : Nat) (present undirected present' : Bool)
  | netAddNode (f i j : Nat) (known : Bool)
  | netAddProbEdge (f n : Nat) (fewer : Bool) (adds : List (Nat × Nat × Bool × Bool × Bool))
  | netAttach (f n : Nat) (adds : List (Nat × Nat × Bool × Bool × Bool))
  | netRemoveAll (f n : Nat)
  | netRemoveEdge (f i j : Nat) (found undirected : Bool)
  | netRemoveAround (f : Nat) (removes : List (Nat × Nat × Bool × Bool))
  | netRemoveNode (f i j : Nat) (removes removes' : List (Nat × Nat × Bool × Bool))
  | netUpdateNode (f i : Nat) (present : Bool)
  | netUpdate (f n : Nat)

/-- src/engine/fields/network.rs:102-142 (`add_edge`) once both ids are known: first the edges of `u` in shard `i`, and,
when those are released, the edges of `v` in shard `j`. -/
def addEdgeL (f i j : Nat) (present undirected present' : Bool) : Trace E :=
  getWriteL f .edges i present [] (insertL f .edges i) ++
  if undirected then getWriteL f .edges j present' [] (insertL f .edges j) else []

/-- src/engine/fields/network.rs:423-460 (`remove_edge`) once both ids are known; `drop` (446) releases the first guard
before the second one is taken. -/
def removeEdgeL (f i j : Nat) (found undirected : Bool) : Trace E :=
  guarded (.shard f .edges i) [] ++ if found && undirected then guarded (.shard f .edges j) [] else []

/-- What the calls do to the shards. -/
def Call.trace : Call → Trace E
  -- network.rs:193-245;
  -- field_2d.rs:65-191, 219-233, 261-265; sparse_object_grid_2d.rs:55-86, 100-105, 129-163, 192-195;
  -- dense_object_grid_2d.rs:55-73, 88-93, 102-123, 163-166; dense_number_grid_2d.rs:51-56, 72-74 and the same in sparse
  | .published => []
  -- field_2d.rs:194-197
  | .fieldLocationUnbuffered f i => getWriteL f .loc i true [] []
  -- field_2d.rs:202-217: `loc` keeps the shard of `floc` while the bag is searched
  | .fieldGetUnbuffered f i j found => getWriteL f .loc i found (getWriteL f .bag j true [] []) []
  -- field_2d.rs:236-251
  | .fieldSet f i j k found =>
    insertL f .loc i ++ insertL f .index j ++ getWriteL f .bag k found [] (insertL f .bag k)
  -- field_2d.rs:256-260
  | .fieldUpdate f n => eachShardL f .loc n ++ eachShardL f .bag n ++ eachShardL f .index n
  -- sparse_object_grid_2d.rs:87-98, dense_object_grid_2d.rs:75-86
  | .objectsUnbuffered f j found => getWriteL f .bag j found [] []
  -- sparse_object_grid_2d.rs:107-112, dense_object_grid_2d.rs:95-100
  | .locationUnbuffered f i found => getWriteL f .loc i found [] []
  -- sparse_object_grid_2d.rs:114-127: the shard of `obj2loc` stays locked while the bag is searched
  | .sparseGetUnbuffered f i j found => getWriteL f .loc i found (getWriteL f .bag j true [] []) []
  -- sparse_object_grid_2d.rs:165-175, dense_object_grid_2d.rs:125-134: `found` is about the published location
  | .removeObject f i j found => (if found then getWriteL f .bag j true [] [] else []) ++ removeL f .loc i
  -- dense_object_grid_2d.rs:136-145
  | .removeObjectLocation f j found => getWriteL f .bag j found [] []
  -- sparse_object_grid_2d.rs:177-188, dense_object_grid_2d.rs:147-158
  | .setObject f i j found => getWriteL f .bag j found [] (insertL f .bag j) ++ insertL f .loc i
  -- sparse_object_grid_2d.rs:197-200, dense_object_grid_2d.rs:168-171
  | .gridUpdate f n => eachShardL f .loc n ++ eachShardL f .bag n
  -- dense_number_grid_2d.rs:58-63 and sparse_number_grid_2d.rs:58-63
  | .valueUnbuffered f j found => getWriteL f .bag j found [] []
  -- dense_number_grid_2d.rs:65-67 and sparse_number_grid_2d.rs:65-67
  | .setValue f j => insertL f .bag j
  -- dense_number_grid_2d.rs:76-78 and sparse_number_grid_2d.rs:75-77
  | .numberUpdate f n => eachShardL f .bag n
  | .netAddEdge f i j present undirected present' => addEdgeL f i j present undirected present'
  -- network.rs:144-157: `i` is the shard of the id in `id2nodes`, `j` in `edges`
  | .netAddNode f i j known => insertL f .nodes i ++ if known then [] else insertL f .edges j
  -- network.rs:161-191: `len` once or twice (176-180), then `add_edge`
  | .netAddProbEdge f n fewer adds =>
    eachShardL f .edges n ++ (if fewer then eachShardL f .edges n else []) ++
    adds.flatMap fun a => addEdgeL f a.1 a.2.1 a.2.2.1 a.2.2.2.1 a.2.2.2.2
  -- network.rs:251-310, 317-382: `len`, `remove_all_edges`, `add_edge`, `update`
  | .netAttach f n adds =>
    eachShardL f .nodes n ++ eachShardL f .edges n ++
    (adds.flatMap fun a => addEdgeL f a.1 a.2.1 a.2.2.1 a.2.2.2.1 a.2.2.2.2) ++
    eachShardL f .edges n ++ eachShardL f .nodes n
  -- network.rs:419-421
  | .netRemoveAll f n => eachShardL f .edges n
  | .netRemoveEdge f i j found undirected => removeEdgeL f i j found undirected
  -- network.rs:462-483, 485-505
  | .netRemoveAround f removes => removes.flatMap fun r => removeEdgeL f r.1 r.2.1 r.2.2.1 r.2.2.2
  -- network.rs:507-538: `i` is the shard of the id in `edges`, `j` in `id2nodes`
  | .netRemoveNode f i j removes removes' =>
    (removes.flatMap fun r => removeEdgeL f r.1 r.2.1 r.2.2.1 r.2.2.2) ++ removeL f .edges i ++
    (removes'.flatMap fun r => removeEdgeL f r.1 r.2.1 r.2.2.1 r.2.2.2) ++ removeL f .edges i ++ removeL f .nodes j
  -- network.rs:540-561
  | .netUpdateNode f i present => getWriteL f .nodes i present [] []
  -- network.rs:565-572
  | .netUpdate f n => eachShardL f .edges n ++ eachShardL f .nodes n

/-- The field whose mutexes the call takes. -/
def Call.field : Call → Option Nat
  | .published => none
  | .fieldLocationUnbuffered f _ => some f
  | .fieldGetUnbuffered f _ _ _ => some f
  | .fieldSet f _ _ _ _ => some f
  | .fieldUpdate f _ => some f
  | .objectsUnbuffered f _ _ => some f
  | .locationUnbuffered f _ _ => some f
  | .sparseGetUnbuffered f _ _ _ => some f
  | .removeObject f _ _ _ => some f
  | .removeObjectLocation f _ _ => some f
  | .setObject f _ _ _ => some f
  | .gridUpdate f _ => some f
  | .valueUnbuffered f _ _ => some f
  | .setValue f _ => some f
  | .numberUpdate f _ => some f
  | .netAddEdge f _ _ _ _ _ => some f
  | .netAddNode f _ _ _ => some f
  | .netAddProbEdge f _ _ _ => some f
  | .netAttach f _ _ => some f
  | .netRemoveAll f _ => some f
  | .netRemoveEdge f _ _ _ _ => some f
  | .netRemoveAround f _ => some f
  | .netRemoveNode f _ _ _ _ => some f
  | .netUpdateNode f _ _ => some f
  | .netUpdate f _ => some f

/-- What a closure does: some calls. -/
def closureTrace (c : List Call) : Trace E := c.flatMap Call.trace

/-- The calls on fields, with and without a closure. A closure is given by the calls it makes, for each time it is
called. -/
inductive Use where
  | call (c : Call)
  /-- `iter_objects`: sparse_object_grid_2d.rs:142-163, dense_object_grid_2d.rs:102-123 -/
  | iter (cs : List (List Call))
  /-- `apply_to_all_values` of object grids, every option: sparse_object_grid_2d.rs:38-53, dense_object_grid_2d.rs:37-53 -/
  | applyObjects (f : Nat) (cs : List (Nat × List Call × Option Nat))
  /-- `apply_to_all_values` of number grids, option READ: dense_number_grid_2d.rs:34-41, sparse_number_grid_2d.rs:34-41 -/
  | applyRead (f : Nat) (cs : List (Nat × List Call))
  /-- option WRITE: dense_number_grid_2d.rs:42-44, sparse_number_grid_2d.rs:42-44 -/
  | applyWrite (f n : Nat) (cs : Nat → List (List Call))
  /-- option READWRITE: dense_number_grid_2d.rs:45-47, sparse_number_grid_2d.rs:45-47 -/
  | applyReadWrite (f n : Nat) (cs : Nat → List (List Call))

/-- What they do to the shards. The closure of `iter_objects` is called without a guard, the bags are published. -/
def Use.trace : Use → Trace E
  | .call c => c.trace
  | .iter cs => cs.flatMap closureTrace
  | .applyObjects f cs => applyKeysL f .loc (cs.map fun c => (c.1, closureTrace c.2.1, c.2.2))
  | .applyRead f cs => applyReadL f .bag (cs.map fun c => (c.1, closureTrace c.2))
  | .applyWrite f n cs => applyWriteL f .bag n (fun i => (cs i).map closureTrace)
  | .applyReadWrite f n cs => applyReadWriteL f .bag n (fun i => (cs i).map closureTrace)

/-! ### The macros of the Simulation Terminal (src/lib.rs:1190-1441). `args` is what the expressions given to the macro
do when they are evaluated. -/

/-- src/lib.rs:1418-1441 (`log!`): type and message are evaluated while `LOGS` is locked. -/
def logL (args : Trace E) : Trace E := guarded .logs args

/-- src/lib.rs:1241-1280 (`plot!`): everything is evaluated while `DATA` is locked, once more while `CSV_SENDER` is
locked if a message `msg` goes to the CSV thread. -/
def plotL (args : Trace E) (msg : Option E) : Trace E :=
  guarded .data (args ++
    match msg with
    | some e => guarded .csvSender (args ++ [.signal e])
    | none => [])

/-- src/lib.rs:1356-1390 (`addplot!`): `PLOT_NAMES` is locked under `DATA` for a new plot with `csv`. -/
def addplotL (args : Trace E) (csv : Bool) : Trace E :=
  guarded .data (args ++ if csv then guarded .plotNames args else [])

/-- src/lib.rs:1191-1195 (`description!`): the right-hand side of the assignment is evaluated before the mutex of the
left-hand side is locked. -/
def descriptionL (args : Trace E) : Trace E := args ++ guarded .descr []

/-! ### The parallel schedule (src/engine/schedule.rs:79-222) -/

/-- src/engine/schedule.rs:100-108 (`schedule_once`). -/
def scheduleOnceL : Trace E := guarded .events []

/-- src/engine/schedule.rs:110-117 (`schedule_repeating`): the ids stay locked while the queue is. -/
def scheduleRepeatingL : Trace E := guarded .ids (guarded .events [])

/-- src/engine/schedule.rs:119-125 (`get_all_events`): the queue is locked while the agents are cloned; `Clone` of an
agent is taken to lock nothing. -/
def getAllEventsL : Trace E := guarded .events []

/-- What the code of a user does in hooks and agents. `msg` is the number of the message `plot!` sends, if any. -/
inductive User where
  | use (u : Use)
  | scheduleOnce
  | scheduleRepeating
  | getAllEvents
  /-- the macros, with arguments that make calls on fields -/
  | log (args : List Call)
  | plot (args : List Call) (msg : Option Nat)
  | addplot (args : List Call) (csv : Bool)
  | description (args : List Call)

/-- `mk k` is the event that message `k` is there to be received. -/
def User.trace (mk : Nat → E) : User → Trace E
  | .use u => u.trace
  | .scheduleOnce => scheduleOnceL
  | .scheduleRepeating => scheduleRepeatingL
  | .getAllEvents => getAllEventsL
  | .log args => logL (closureTrace args)
  | .plot args msg => plotL (closureTrace args) (msg.map mk)
  | .addplot args csv => addplotL (closureTrace args) csv
  | .description args => descriptionL (closureTrace args)

def userTrace (mk : Nat → E) (us : List User) : Trace E := us.flatMap (User.trace mk)

/-- What a step of the schedule runs: the hooks of the state and the batches of the threads. An item is what the agent
does in `before_step`, `step`, `after_step` and `is_stopped`, and whether it is scheduled again. -/
structure StepPlan where
  first : Bool
  update0 : List User
  before : List User
  batches : List (List (List User × Bool))
  after : List User
  update : List User

/-- The events of the parallel schedule: thread `t` of step `s` has been started, has ended. The others are the
messages to the CSV thread. -/
inductive Ev where
  | spawned (s t : Nat)
  | ended (s t : Nat)
  | message (k : Nat)
deriving DecidableEq

/-- src/engine/schedule.rs:129-174, everything before the threads are started: the length of the queue (130), the first
`update` (133-135) and `before_step` (137) under the mutex of the state, the emptiness test (139), `peek` (147) and the
loop that empties the queue (155-174), `n` times two locks and once more. -/
def beforeThreads (n : Nat) (p : StepPlan) : Trace Ev :=
  guarded .events [] ++
  (if p.first then guarded .state (userTrace .message p.update0) else []) ++
  guarded .state (userTrace .message p.before) ++
  guarded .events [] ++ guarded .events [] ++
  (List.replicate n (guarded .events [] ++ guarded .events [])).flatten ++ guarded .events []

/-- src/engine/schedule.rs:185-211: an item of a batch. The guard of the state lives until the end of the iteration,
that of the queue inside it. -/
def itemL (item : List User × Bool) : Trace Ev :=
  guarded .state (userTrace .message item.1 ++ if item.2 then guarded .events [] else [])

/-- src/engine/schedule.rs:183-212: thread `t` of step `s`. -/
def workerL (s t : Nat) (batch : List (List User × Bool)) : Trace Ev :=
  .await (.spawned s t) :: (batch.flatMap itemL ++ [.signal (.ended s t)])

/-- src/engine/schedule.rs:127-221 (`step`) in the thread that calls it. `thread::scope` (176-214) starts the threads
and waits for all of them at its end. -/
def stepL (s n : Nat) (p : StepPlan) : Trace Ev :=
  beforeThreads n p ++
  (List.range p.batches.length).map (fun t => Act.signal (.spawned s t)) ++
  (List.range p.batches.length).map (fun t => Act.await (.ended s t)) ++
  guarded .state (userTrace .message p.after) ++ guarded .state (userTrace .message p.update)

/-- The threads of the steps `s`, `s+1`, …: first the calls of `step`, in one thread; then all agent threads. Each plan
comes with the length of the queue. -/
def stepsL (s : Nat) : List (Nat × StepPlan) → Trace Ev
  | [] => []
  | p :: ps => stepL s p.1 p.2 ++ stepsL (s + 1) ps

def workersL (s : Nat) : List (Nat × StepPlan) → List (Trace Ev)
  | [] => []
  | p :: ps => (p.2.batches.mapIdx fun t b => workerL s t b) ++ workersL (s + 1) ps

/-- A simulation under the feature `parallel`: `init` and then steps. -/
def simulationL (init : List User) (ps : List (Nat × StepPlan)) : List (Trace Ev) :=
  (userTrace .message init ++ stepsL 0 ps) :: workersL 0 ps

end Verif.Locks
