import Verif.Model.Fl

/-!
Model of the comparisons and hashes that the containers of the engine rely on: `Priority` (src/engine/priority.rs), `AgentImpl`
(src/engine/agentimpl.rs), `Int2D` and `Real2D` (src/engine/location.rs), with all float values.

Simplification: a hasher is what it is fed (`List Int`); `-0.0` and `0.0` are one value of `Fl`.
-/

namespace Verif.Keys

/-- `==` of floats (the comparisons of src/engine/priority.rs:50, src/engine/location.rs:32): NaN is not equal to itself. -/
def feq : Fl → Fl → Bool
  | .nan, _ => false
  | _, .nan => false
  | a, b => decide (a = b)

/-- `Priority` (src/engine/priority.rs:4-9). -/
structure Prio where
  time : Fl
  ordering : Int
deriving DecidableEq, Repr

/-- `Priority::new` (src/engine/priority.rs:13-18). -/
def Prio.new (theTime : Fl) (theOrdering : Int) : Prio := { time := theTime, ordering := theOrdering }

/-- `cmp` (src/engine/priority.rs:23-37). -/
def Prio.cmp (p q : Prio) : Ordering :=
  if p.time.lt q.time then .gt
  else if q.time.lt p.time then .lt
  else if p.ordering < q.ordering then .gt
  else if q.ordering < p.ordering then .lt
  else .eq

/-- `partial_cmp` (src/engine/priority.rs:41-43). -/
def Prio.partialCmp (p q : Prio) : Option Ordering := some (p.cmp q)

/-- `eq` (src/engine/priority.rs:49-51). -/
def Prio.eq (p q : Prio) : Bool := decide (p.ordering = q.ordering) && feq p.time q.time

/-- `AgentImpl` (src/engine/agentimpl.rs:16-20). -/
structure AgentImpl (A : Type) where
  id : Nat
  agent : A
  repeating : Bool
deriving DecidableEq, Repr

/-- `AgentImpl::new` (src/engine/agentimpl.rs:24-30). -/
def AgentImpl.new {A : Type} (agent : A) (id : Nat) : AgentImpl A := { id := id, agent := agent, repeating := false }

/-- `eq` (src/engine/agentimpl.rs:44-46). -/
def AgentImpl.eq {A : Type} (a b : AgentImpl A) : Bool := decide (a.id = b.id)

/-- `hash` (src/engine/agentimpl.rs:50-52): what the hasher is fed. -/
def AgentImpl.hash {A : Type} (a : AgentImpl A) : List Int := [(a.id : Int)]

/-- `Int2D` (src/engine/location.rs:37-40). -/
structure Int2D where
  x : Int
  y : Int
deriving DecidableEq, Repr

/-- `eq` (src/engine/location.rs:52-54). -/
def Int2D.eq (a b : Int2D) : Bool := decide (a.x = b.x) && decide (a.y = b.y)

/-- `hash` (src/engine/location.rs:58-61): what the hasher is fed. -/
def Int2D.hash (a : Int2D) : List Int := [a.x, a.y]

/-- `Real2D` (src/engine/location.rs:7-20). -/
structure Real2D where
  x : Fl
  y : Fl
deriving DecidableEq, Repr

/-- `eq` (src/engine/location.rs:31-33). -/
def Real2D.eq (a b : Real2D) : Bool := feq a.x b.x && feq a.y b.y

end Verif.Keys
