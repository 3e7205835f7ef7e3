import Verif.Model.Driver
import Verif.Model.ParallelSchedule
import Verif.Model.DenseObjectGrid
import Verif.Model.SparseObjectGrid
import Verif.Model.ParGrid
import Verif.Model.Field2D
import Verif.Model.ParField2D

/-!
Model of the programs the library is made for: agents that look at a double-buffered field, decide and place themselves in it again,
and a state that publishes the field in `update` (the pattern of tests/model/flockers/bird.rs:39-154 and
tests/model/flockers/state.rs:41-60). The field, what an agent looks at and how it decides are parameters.

Simplifications: the state consists of the field only; the random numbers are an arbitrary stream of values of a type `D`, of which
every turn of an agent takes the next; a panic leaves the state without field (`none`) for good.
-/

namespace Verif.Sync

open Schedule

/-- The calls on a field: what an agent looks at (`get_objects`, a neighbour search), `set_object_location`, `lazy_update` (src/engine/fields/field.rs:1-20,
src/engine/fields/field_2d.rs:386-440, 838-846, 905-921). -/
structure FieldOps (F B V : Type) where
  look : F → B → Option V
  place : F → B → Option F
  publish : F → Option F

/-- The state: the field and the number of random values taken (tests/model/flockers/state.rs:16-21). -/
structure State (F : Type) where
  field : Option F
  draws : Nat

variable {T F B V D : Type}

/-- `Agent::step` (src/engine/agent.rs:13): look, decide, place yourself unless you die. An agent is its record and a flag, true as
long as it lives. -/
def agentStep (ops : FieldOps F B V) (act : D → B → V → B × Bool) (rnd : Nat → D) (a : B × Bool) (s : State F) :
    (B × Bool) × State F :=
  match s.field with
  | none => (a, s)
  | some f =>
    match ops.look f a.1 with
    | none => (a, ⟨none, s.draws⟩)
    | some v =>
      (act (rnd s.draws) a.1 v,
        ⟨if (act (rnd s.draws) a.1 v).2 then ops.place f (act (rnd s.draws) a.1 v).1 else some f, s.draws + 1⟩)

/-- The hooks: `update` publishes (tests/model/flockers/state.rs:58-60), `is_stopped` answers whether the agent died, the others are
the defaults of src/engine/state.rs:54-62 and src/engine/agent.rs:19-39. -/
def model (adv : T → T) (tb : TieBreak T (B × Bool)) (ops : FieldOps F B V) (act : D → B → V → B × Bool) (rnd : Nat → D) :
    Model T (B × Bool) (State F) :=
  { update := fun _ s => ⟨s.field.bind ops.publish, s.draws⟩
    beforeStep := fun s _ => (s, [])
    afterStep := fun s _ => (s, [])
    aBefore := fun a s => (a, s)
    aStep := agentStep ops act rnd
    aAfter := fun a s => (a, s)
    isStopped := fun a s => (!a.2, a, s)
    adv := adv
    tb := tb }

/-- `State::init` (src/engine/state.rs:49, tests/model/flockers/state.rs:41-56): every agent is placed and scheduled from `zero` on;
`ord` are the orderings given to `schedule_repeating`. -/
def init (zero : T) (ops : FieldOps F B V) (agents : List B) (ord : Nat → Int) (s : State F) :
    State F × List (Cmd T (B × Bool)) :=
  (⟨s.field.bind (fun f => agents.foldlM ops.place f), s.draws⟩,
    agents.mapIdx (fun i b => .scheduleRepeating (b, true) zero (ord i)))

/-- The simulation for the driver; `end_condition` is the default (src/engine/state.rs:60-62). -/
def sim (zero : T) (adv : T → T) (tb : TieBreak T (B × Bool)) (ops : FieldOps F B V) (act : D → B → V → B × Bool) (rnd : Nat → D)
    (agents : List B) (ord : Nat → Int) : Driver.Sim T (B × Bool) (State F) :=
  { model := model adv tb ops act rnd
    zero := zero
    init := init zero ops agents ord
    endCondition := fun w => (false, w.state, []) }

/-! ### The fields of the library -/

open Grid (Loc)

variable [DecidableEq B]

/-- Agents on a `DenseGrid2D`: an agent at `loc b` looks with `get_objects` at the locations `nbh b`
(src/engine/fields/dense_object_grid_2d.rs:507-521, 688-697, 743-750). -/
def denseOps (loc : B → Loc) (nbh : B → List Loc) : FieldOps (DenseObject.OGrid B) B (List (Option (List B))) :=
  { look := fun g b => (nbh b).mapM (DenseObject.getObjects g)
    place := fun g b => DenseObject.setObjectLocation g b (loc b)
    publish := fun g => some (DenseObject.lazyUpdate g) }

/-- Agents on a `SparseGrid2D`, with `get_objects` (src/engine/fields/sparse_object_grid_2d.rs:421-423, 648-658, 705-708). -/
def sparseOps (loc : B → Loc) (nbh : B → List Loc) : FieldOps (SparseObject.BGrid B) B (List (Option (List B))) :=
  { look := fun g b => some ((nbh b).map (SparseObject.getObjects g))
    place := fun g b => some (SparseObject.setObjectLocation g b (loc b))
    publish := fun g => some (SparseObject.lazyUpdate g) }

/-- Agents on either grid with the feature `parallel` (src/engine/fields/dense_object_grid_2d.rs:62-166,
src/engine/fields/sparse_object_grid_2d.rs:75-195); `ident` is the identity that `Eq` and `Hash` of the agents go by. -/
def parGridOps (ident : B → Nat) (loc : B → Loc) (nbh : B → List Loc) : FieldOps (ParGrid.OGrid B Nat) B (List (Option (List B))) :=
  { look := fun g b => (nbh b).mapM g.getObjects
    place := fun g b => g.setObjectLocation ident b (loc b)
    publish := fun g => some g.lazyUpdate }

/-- Agents in a `Field2D` that look at their neighbours within the distance `reach b`
(src/engine/fields/field_2d.rs:386-440, 838-846, 905-921). -/
def fieldOps (loc : B → Torus.Pos) (reach : B → Rat) : FieldOps (Field2D.Field B) B (List B) :=
  { look := fun f b => Field2D.getNeighborsWithinDistance f loc (loc b) (reach b)
    place := fun f b => Field2D.setObjectLocation f b (loc b)
    publish := Field2D.lazyUpdate }

/-- The same with the feature `parallel` (src/engine/fields/field_2d.rs:65-115, 236-251, 261-265). -/
def parFieldOps (ident : B → Nat) (loc : B → Torus.Pos) (reach : B → Rat) : FieldOps (ParField2D.PField B Nat) B (List B) :=
  { look := fun f b => f.getNeighborsWithinDistance loc (loc b) (reach b)
    place := fun f b => f.setObjectLocation ident b (loc b)
    publish := fun f => some f.lazyUpdate }

end Verif.Sync
