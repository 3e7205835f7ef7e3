import Verif.Model.MachineField
import Verif.Model.Synchronous

/-!
Agents in a `Field2D` with the machine arithmetic of the code, and the rule of the birds of the flockers simulation (tests/model/flockers/bird.rs) in that
arithmetic: `f32` with infinities and NaN, every operation rounded, in the order of the code.

Simplifications: the random numbers are an arbitrary stream of pairs; a step of a bird moves on in it whether it draws or not. The counter `count`, an `i32`, does not
overflow. The field `flag` of a bird, which nothing reads, is left out.
-/

namespace Verif.Machine

open DenseI32 (Mode)

/-- Agents in a `Field2D` that look at their neighbours within the distance `reach b` (src/engine/fields/field_2d.rs:386-440, 838-846, 905-921). -/
def agentOps {B : Type} [DecidableEq B] (rnd root : Rat → Rat) (m : Mode) (loc : B → PosF) (reach : B → F) : Sync.FieldOps (FieldF B) B (List B) :=
  { look := fun f b => getNeighborsWithinDistance rnd root m f loc (loc b) (reach b)
    place := fun f b => setObjectLocation rnd m f b (loc b)
    publish := lazyUpdate m }

/-- `Bird` (tests/model/flockers/bird.rs:19-25). -/
structure BirdF where
  id : Nat
  pos : PosF
  lastD : PosF
  deriving DecidableEq

/-- The sums of the loop over the neighbours (tests/model/flockers/bird.rs:54-60). -/
structure AccF where
  xAvoid : F
  yAvoid : F
  xCohe : F
  yCohe : F
  xCons : F
  yCons : F
  count : Nat
  deriving DecidableEq

/-- The sums before the loop (tests/model/flockers/bird.rs:54-60). -/
def AccF.zero : AccF := ⟨.fin 0, .fin 0, .fin 0, .fin 0, .fin 0, .fin 0, 0⟩

/-- `square` of the loop (tests/model/flockers/bird.rs:69). -/
def squareOf (rnd : Rat → Rat) (dx dy : F) : F := add rnd (mul rnd dx dx) (mul rnd dy dy)

/-- `square * square + 1.0` (tests/model/flockers/bird.rs:70-71). -/
def repulsion (rnd : Rat → Rat) (square : F) : F := add rnd (mul rnd square square) (.fin 1)

/-- The body of the loop, for a neighbour at `dx`, `dy` (tests/model/flockers/bird.rs:66-80). -/
def AccF.plus (rnd : Rat → Rat) (a : AccF) (dx dy : F) (lastD : PosF) : AccF :=
  { xAvoid := add rnd a.xAvoid (div rnd dx (repulsion rnd (squareOf rnd dx dy)))
    yAvoid := add rnd a.yAvoid (div rnd dy (repulsion rnd (squareOf rnd dx dy)))
    xCohe := add rnd a.xCohe dx
    yCohe := add rnd a.yCohe dy
    xCons := add rnd a.xCons lastD.x
    yCons := add rnd a.yCons lastD.y
    count := a.count + 1 }

/-- One round of the loop over the neighbours (tests/model/flockers/bird.rs:62-81). -/
def addNeighbor (rnd : Rat → Rat) (w h : F) (self : BirdF) (a : AccF) (elem : BirdF) : AccF :=
  if self.id ≠ elem.id then
    a.plus rnd (toroidalDist rnd self.pos.x elem.pos.x w) (toroidalDist rnd self.pos.y elem.pos.y h) elem.lastD
  else a

/-- A sum divided by `count as f32`, if there is anything to count (tests/model/flockers/bird.rs:83-89). -/
def AccF.mean (rnd : Rat → Rat) (a : AccF) (sum : F) : F := if a.count > 0 then div rnd sum (ofRat rnd a.count) else sum

/-- `consistency`: divided by `count` a second time (tests/model/flockers/bird.rs:91-100). -/
def AccF.consistency (rnd : Rat → Rat) (a : AccF) : PosF := ⟨a.mean rnd (a.mean rnd a.xCons), a.mean rnd (a.mean rnd a.yCons)⟩

/-- `avoidance` (tests/model/flockers/bird.rs:102-105). -/
def AccF.avoidance (rnd : Rat → Rat) (a : AccF) : PosF := ⟨mul rnd (.fin 400) (a.mean rnd a.xAvoid), mul rnd (.fin 400) (a.mean rnd a.yAvoid)⟩

/-- `cohesion` (tests/model/flockers/bird.rs:107-110). -/
def AccF.cohesion (rnd : Rat → Rat) (a : AccF) : PosF :=
  ⟨div rnd (neg (a.mean rnd a.xCohe)) (.fin 10), div rnd (neg (a.mean rnd a.yCohe)) (.fin 10)⟩

/-- `x_rand` and `y_rand` (tests/model/flockers/bird.rs:114-117). -/
def spread (rnd : Rat → Rat) (r : Rat) : F := sub rnd (mul rnd (.fin r) (.fin 2)) (.fin 1)

/-- `randomness` (tests/model/flockers/bird.rs:112-123). -/
def randomness (rnd root : Rat → Rat) (r : Rat × Rat) : PosF :=
  ⟨div rnd (mul rnd (.fin (rnd (1 / 20))) (spread rnd r.1)) (sqrt root (squareOf rnd (spread rnd r.1) (spread rnd r.2))),
    div rnd (mul rnd (.fin (rnd (1 / 20))) (spread rnd r.2)) (sqrt root (squareOf rnd (spread rnd r.1) (spread rnd r.2)))⟩

/-- The sum of the four vectors and the momentum, each multiplied by its weight 1 (tests/model/flockers/bird.rs:126-137). -/
def together (rnd : Rat → Rat) (cohesion avoidance consistency randomness mom : F) : F :=
  add rnd (add rnd (add rnd (add rnd (mul rnd (.fin 1) cohesion) (mul rnd (.fin 1) avoidance)) (mul rnd (.fin 1) consistency)) (mul rnd (.fin 1) randomness))
    (mul rnd (.fin 1) mom)

/-- `dx` and `dy` before they are scaled (tests/model/flockers/bird.rs:46-137). -/
def direction (rnd root : Rat → Rat) (w h : F) (r : Rat × Rat) (self : BirdF) (vec : List BirdF) : PosF :=
  if vec.isEmpty then
    ⟨together rnd (.fin 0) (.fin 0) (.fin 0) (.fin 0) self.lastD.x, together rnd (.fin 0) (.fin 0) (.fin 0) (.fin 0) self.lastD.y⟩
  else
    ⟨together rnd ((vec.foldl (addNeighbor rnd w h self) AccF.zero).cohesion rnd).x ((vec.foldl (addNeighbor rnd w h self) AccF.zero).avoidance rnd).x
        ((vec.foldl (addNeighbor rnd w h self) AccF.zero).consistency rnd).x (randomness rnd root r).x self.lastD.x,
      together rnd ((vec.foldl (addNeighbor rnd w h self) AccF.zero).cohesion rnd).y ((vec.foldl (addNeighbor rnd w h self) AccF.zero).avoidance rnd).y
        ((vec.foldl (addNeighbor rnd w h self) AccF.zero).consistency rnd).y (randomness rnd root r).y self.lastD.y⟩

/-- `dx` and `dy` scaled to length `JUMP` (tests/model/flockers/bird.rs:139-143). -/
def scaled (rnd root : Rat → Rat) (v : PosF) : PosF :=
  if lt (.fin 0) (sqrt root (squareOf rnd v.x v.y)) then
    ⟨mul rnd (div rnd v.x (sqrt root (squareOf rnd v.x v.y))) (.fin (rnd (7 / 10))),
      mul rnd (div rnd v.y (sqrt root (squareOf rnd v.x v.y))) (.fin (rnd (7 / 10)))⟩
  else v

/-- The bird after its move (tests/model/flockers/bird.rs:145-149). Both coordinates are wrapped with the width. -/
def move (rnd root : Rat → Rat) (w h : F) (r : Rat × Rat) (self : BirdF) (vec : List BirdF) : BirdF :=
  { id := self.id
    lastD := scaled rnd root (direction rnd root w h r self vec)
    pos := ⟨transform rnd (add rnd self.pos.x (scaled rnd root (direction rnd root w h r self vec)).x) w,
      transform rnd (add rnd self.pos.y (scaled rnd root (direction rnd root w h r self vec)).y) w⟩ }

/-- The rule of a bird; a bird never dies (tests/model/flockers/bird.rs:39-154, src/engine/agent.rs:18-20). -/
def birdAct (rnd root : Rat → Rat) (w h : F) (r : Rat × Rat) (self : BirdF) (vec : List BirdF) : BirdF × Bool := (move rnd root w h r self vec, true)

/-- The calls of the birds on the field: they look 10 far (tests/model/flockers/bird.rs:41, 151-153, tests/model/flockers/state.rs:59). -/
def birdOps (rnd root : Rat → Rat) (m : Mode) : Sync.FieldOps (FieldF BirdF) BirdF (List BirdF) := agentOps rnd root m BirdF.pos (fun _ => .fin 10)

/-- The bird with this number, as `init` makes it (tests/model/flockers/state.rs:44-52). -/
def newBird (rnd : Rat → Rat) (w h : F) (i : Nat) (r : Rat × Rat) : BirdF := ⟨i, ⟨mul rnd w (.fin r.1), mul rnd h (.fin r.2)⟩, ⟨.fin 0, .fin 0⟩⟩

end Verif.Machine
