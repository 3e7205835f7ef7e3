import Verif.Model.Driver
import Verif.Model.ParallelSchedule
import Verif.Model.ParField2D

/-!
Model of the flockers simulation that comes with the library (tests/model/flockers/bird.rs, tests/model/flockers/state.rs), a program
that uses the schedule, the driver and `Field2D` together.

Simplifications: `f32` values are exact rationals, so a division by zero gives 0 instead of an infinity or NaN; `sqrt` is an arbitrary
function. The random numbers are an arbitrary stream of pairs; a step of a bird moves on in it whether it draws or not. The field
`flag` of a bird, which nothing reads, and the counter `step` of the state, which nothing changes, are left out. A panic anywhere
leaves the state without field (`none`) for good. The functions are generic in the field so that they serve the sequential field and
the one of the feature `parallel`.
-/

namespace Verif.Flockers

open Torus Schedule

/-- `Bird` (tests/model/flockers/bird.rs:19-25). `PartialEq` and `Hash` of the code use the `id` only (157-172). -/
structure Bird where
  id : Nat
  pos : Pos
  lastD : Pos
  deriving DecidableEq

/-- The methods of `Field2D` the simulation calls (tests/model/flockers/bird.rs:41, 151-153, tests/model/flockers/state.rs:53, 59). -/
structure FieldOps (F : Type) where
  place : F → Bird → Pos → Option F
  neighbors : F → Pos → Rat → Option (List Bird)
  lazyUpdate : F → Option F

/-- The sequential field; `get_location` of a bird is its `pos` (tests/model/flockers/bird.rs:174-182). -/
def seqOps : FieldOps (Field2D.Field Bird) :=
  { place := Field2D.setObjectLocation
    neighbors := fun f loc dist => Field2D.getNeighborsWithinDistance f Bird.pos loc dist
    lazyUpdate := Field2D.lazyUpdate }

/-- The field of the feature `parallel` (src/engine/fields/field_2d.rs:27-266, tests/model/flockers/bird.rs:157-182). -/
def parOps : FieldOps (ParField2D.PField Bird Nat) :=
  { place := fun f b loc => f.setObjectLocation Bird.id b loc
    neighbors := fun f loc dist => f.getNeighborsWithinDistance Bird.pos loc dist
    lazyUpdate := fun f => some f.lazyUpdate }

/-- What is given from outside: the square root, the random numbers, the size of the world (`dim`), the number of birds and the
weight `RANDOMNESS` (tests/model/flockers/bird.rs:12-17, tests/model/flockers/state.rs:16-21). -/
structure Config where
  sqrt : Rat → Rat
  rnd : Nat → Rat × Rat
  width : Rat
  height : Rat
  birds : Nat
  randomness : Rat

/-- The sums of the loop over the neighbours (tests/model/flockers/bird.rs:54-60). -/
structure Acc where
  xAvoid : Rat
  yAvoid : Rat
  xCohe : Rat
  yCohe : Rat
  xCons : Rat
  yCons : Rat
  count : Nat

/-- The sums before the loop (tests/model/flockers/bird.rs:54-60). -/
def Acc.zero : Acc := ⟨0, 0, 0, 0, 0, 0, 0⟩

/-- One round of the loop over the neighbours (tests/model/flockers/bird.rs:62-81). -/
def addNeighbor (w h : Rat) (self : Bird) (a : Acc) (elem : Bird) : Acc :=
  if self.id ≠ elem.id then
    { xAvoid := a.xAvoid + toroidalDistance self.pos.x elem.pos.x w /
        ((toroidalDistance self.pos.x elem.pos.x w * toroidalDistance self.pos.x elem.pos.x w +
            toroidalDistance self.pos.y elem.pos.y h * toroidalDistance self.pos.y elem.pos.y h) *
          (toroidalDistance self.pos.x elem.pos.x w * toroidalDistance self.pos.x elem.pos.x w +
            toroidalDistance self.pos.y elem.pos.y h * toroidalDistance self.pos.y elem.pos.y h) + 1)
      yAvoid := a.yAvoid + toroidalDistance self.pos.y elem.pos.y h /
        ((toroidalDistance self.pos.x elem.pos.x w * toroidalDistance self.pos.x elem.pos.x w +
            toroidalDistance self.pos.y elem.pos.y h * toroidalDistance self.pos.y elem.pos.y h) *
          (toroidalDistance self.pos.x elem.pos.x w * toroidalDistance self.pos.x elem.pos.x w +
            toroidalDistance self.pos.y elem.pos.y h * toroidalDistance self.pos.y elem.pos.y h) + 1)
      xCohe := a.xCohe + toroidalDistance self.pos.x elem.pos.x w
      yCohe := a.yCohe + toroidalDistance self.pos.y elem.pos.y h
      xCons := a.xCons + elem.lastD.x
      yCons := a.yCons + elem.lastD.y
      count := a.count + 1 }
  else a

/-- The division of the sums (tests/model/flockers/bird.rs:83-89); the branch is taken if `count > 0`. -/
def Acc.mean (a : Acc) : Acc :=
  if a.count > 0 then
    ⟨a.xAvoid / a.count, a.yAvoid / a.count, a.xCohe / a.count, a.yCohe / a.count, a.xCons / a.count, a.yCons / a.count, a.count⟩
  else a

/-- `consistency`: divided by `count` a second time (tests/model/flockers/bird.rs:91-100). -/
def Acc.consistency (a : Acc) : Pos :=
  if a.count > 0 then ⟨a.mean.xCons / a.count, a.mean.yCons / a.count⟩ else ⟨a.xCons, a.yCons⟩

/-- `avoidance` (tests/model/flockers/bird.rs:102-105). -/
def Acc.avoidance (a : Acc) : Pos := ⟨400 * a.mean.xAvoid, 400 * a.mean.yAvoid⟩

/-- `cohesion` (tests/model/flockers/bird.rs:107-110). -/
def Acc.cohesion (a : Acc) : Pos := ⟨-a.mean.xCohe / 10, -a.mean.yCohe / 10⟩

/-- `randomness` (tests/model/flockers/bird.rs:112-123). -/
def randomness (sqrt : Rat → Rat) (r : Rat × Rat) : Pos :=
  ⟨1 / 20 * (r.1 * 2 - 1) / sqrt ((r.1 * 2 - 1) * (r.1 * 2 - 1) + (r.2 * 2 - 1) * (r.2 * 2 - 1)),
    1 / 20 * (r.2 * 2 - 1) / sqrt ((r.1 * 2 - 1) * (r.1 * 2 - 1) + (r.2 * 2 - 1) * (r.2 * 2 - 1))⟩

/-- `dx` and `dy` before they are scaled (tests/model/flockers/bird.rs:46-137); the weights other than `RANDOMNESS` are 1. -/
def direction (c : Config) (r : Rat × Rat) (self : Bird) (vec : List Bird) : Pos :=
  if vec.isEmpty then ⟨self.lastD.x, self.lastD.y⟩
  else
    ⟨(vec.foldl (addNeighbor c.width c.height self) Acc.zero).cohesion.x +
        (vec.foldl (addNeighbor c.width c.height self) Acc.zero).avoidance.x +
        (vec.foldl (addNeighbor c.width c.height self) Acc.zero).consistency.x + c.randomness * (randomness c.sqrt r).x +
        self.lastD.x,
      (vec.foldl (addNeighbor c.width c.height self) Acc.zero).cohesion.y +
        (vec.foldl (addNeighbor c.width c.height self) Acc.zero).avoidance.y +
        (vec.foldl (addNeighbor c.width c.height self) Acc.zero).consistency.y + c.randomness * (randomness c.sqrt r).y +
        self.lastD.y⟩

/-- `dx` and `dy` scaled to length `JUMP` (tests/model/flockers/bird.rs:139-143). -/
def scaled (c : Config) (v : Pos) : Pos :=
  if c.sqrt (v.x * v.x + v.y * v.y) > 0 then
    ⟨v.x / c.sqrt (v.x * v.x + v.y * v.y) * (7 / 10), v.y / c.sqrt (v.x * v.x + v.y * v.y) * (7 / 10)⟩
  else v

/-- The bird after its move (tests/model/flockers/bird.rs:145-149). Both coordinates are wrapped with the width. -/
def move (c : Config) (r : Rat × Rat) (self : Bird) (vec : List Bird) : Bird :=
  { id := self.id
    lastD := scaled c (direction c r self vec)
    pos := ⟨toroidalTransform (self.pos.x + (scaled c (direction c r self vec)).x) c.width,
      toroidalTransform (self.pos.y + (scaled c (direction c r self vec)).y) c.width⟩ }

/-- `Flocker` (tests/model/flockers/state.rs:16-21): the field, `none` after a panic, and the number of pairs of random numbers
passed so far. -/
structure State (F : Type) where
  field : Option F
  draws : Nat

/-- `Bird::step` (tests/model/flockers/bird.rs:39-154). -/
def birdStep {F : Type} (ops : FieldOps F) (c : Config) (self : Bird) (s : State F) : Bird × State F :=
  match s.field with
  | none => (self, s)
  | some f =>
    match ops.neighbors f self.pos 10 with
    | none => (self, ⟨none, s.draws⟩)
    | some vec =>
      (move c (c.rnd s.draws) self vec,
        ⟨ops.place f (move c (c.rnd s.draws) self vec) (move c (c.rnd s.draws) self vec).pos, s.draws + 1⟩)

/-- The bird with this number, as `init` makes it (tests/model/flockers/state.rs:44-52). -/
def newBird (c : Config) (draws i : Nat) : Bird :=
  ⟨i, ⟨c.width * (c.rnd (draws + i)).1, c.height * (c.rnd (draws + i)).2⟩, ⟨0, 0⟩⟩

/-- The birds `init` makes (tests/model/flockers/state.rs:44-52). -/
def newBirds (c : Config) (draws : Nat) : List Bird := (List.range c.birds).map (newBird c draws)

/-- `Flocker::init` (tests/model/flockers/state.rs:41-56); the second part are the calls on the schedule. -/
def init {F T : Type} (zero : T) (ops : FieldOps F) (c : Config) (s : State F) : State F × List (Cmd T Bird) :=
  (⟨s.field.bind (fun f => (newBirds c s.draws).foldlM (fun f b => ops.place f b b.pos) f), s.draws + c.birds⟩,
    (newBirds c s.draws).map (fun b => .scheduleRepeating b zero 0))

/-- The hooks of `Flocker` and of `Bird`: `update` publishes the field (tests/model/flockers/state.rs:58-60), the others are the
defaults of src/engine/state.rs and src/engine/agent.rs. -/
def model {F T : Type} (adv : T → T) (tb : TieBreak T Bird) (ops : FieldOps F) (c : Config) : Model T Bird (State F) :=
  { update := fun _ s => ⟨s.field.bind ops.lazyUpdate, s.draws⟩
    beforeStep := fun s _ => (s, [])
    afterStep := fun s _ => (s, [])
    aBefore := fun b s => (b, s)
    aStep := birdStep ops c
    aAfter := fun b s => (b, s)
    isStopped := fun b s => (false, b, s)
    adv := adv
    tb := tb }

/-- The simulation for the driver; `end_condition` is the default (src/engine/state.rs:25-27, 60-62). -/
def sim {F T : Type} (zero : T) (adv : T → T) (tb : TieBreak T Bird) (ops : FieldOps F) (c : Config) : Driver.Sim T Bird (State F) :=
  { model := model adv tb ops c
    zero := zero
    init := init zero ops c
    endCondition := fun w => (false, w.state, []) }

/-- `Flocker::new` with `Field2D::new` (tests/model/flockers/state.rs:25-32): `DISCRETIZATION` is `1/2`, `TOROIDAL` is true. -/
def newState (c : Config) : State (Field2D.Field Bird) := ⟨some (Field2D.new c.width c.height (1 / 2) true), 0⟩

/-- `Flocker::new` under the feature `parallel` (tests/model/flockers/state.rs:25-32, src/engine/fields/field_2d.rs:40-50). -/
def newStatePar (cpus : Nat) (hashO : Nat → Nat) (hashL : Grid.Loc → Nat) (c : Config) : State (ParField2D.PField Bird Nat) :=
  ⟨some (ParField2D.PField.new cpus hashO hashL c.width c.height (1 / 2) true), 0⟩

end Verif.Flockers
