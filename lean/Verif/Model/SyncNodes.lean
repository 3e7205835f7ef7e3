import Verif.Model.Synchronous
import Verif.Model.Network
import Verif.Model.ParNetwork

/-!
Model of the programs on networks: every agent is a node, in its step it looks at the nodes it is joined to (`get_edges`, then
`get_object` of each end), decides, and puts its new record into the network with `update_node`; the state publishes the network in
`update`. The hooks and the agents' step are those of `Verif.Model.Synchronous`; only the looking, the placing and `init` differ.
An agent that dies leaves the schedule; its node stays.
-/

namespace Verif.Sync

open Schedule

variable {T F B V D K : Type}

/-- `State::init` (src/engine/state.rs:49): the network is made anew by `build`, and every agent is scheduled from `zero` on; `ord` are
the orderings given to `schedule_repeating`. -/
def initNodes (zero : T) (build : Option F) (agents : List B) (ord : Nat → Int) (s : State F) : State F × List (Cmd T (B × Bool)) :=
  (⟨build, s.draws⟩, agents.mapIdx (fun i b => .scheduleRepeating (b, true) zero (ord i)))

/-- The simulation for the driver; `end_condition` is the default (src/engine/state.rs:60-62). -/
def simNodes (zero : T) (adv : T → T) (tb : TieBreak T (B × Bool)) (ops : FieldOps F B V) (act : D → B → V → B × Bool)
    (rnd : Nat → D) (build : Option F) (agents : List B) (ord : Nat → Int) : Driver.Sim T (B × Bool) (State F) :=
  { model := model adv tb ops act rnd
    zero := zero
    init := initNodes zero build agents ord
    endCondition := fun w => (false, w.state, []) }

variable [DecidableEq K]

/-- The calls of such an agent on a `Network`: `get_edges(self)`, `get_object(e.v).unwrap()` for each edge if there are any,
`update_node(self)`; `update` in the state (src/engine/fields/network.rs:963-972, 1000-1003, 1614-1643). -/
def netOps (ident : B → K) : FieldOps (Network.Net K B Unit Unit) B (List B) :=
  { look := fun n b => ((Network.getEdges ident n b).getD []).mapM (fun e => Network.getObject n e.v)
    place := fun n b => some (Network.updateNode ident n b)
    publish := fun n => some (Network.update n) }

/-- The same with the feature `parallel` (src/engine/fields/network.rs:227-244, 540-568). -/
def parNetOps (ident : B → K) : FieldOps (ParNetwork.PNet K B Unit Unit) B (List B) :=
  { look := fun n b => (ParNetwork.getEdges ident n b).bind
      (fun o => (o.getD []).mapM (fun e => (ParNetwork.getObject n e.v).bind id))
    place := fun n b => ParNetwork.updateNode ident n b
    publish := fun n => some (ParNetwork.update n) }

/-- The calls that make the network: every agent becomes a node, then the edges between the agents with these numbers are added
(src/engine/fields/network.rs:741-815). -/
def buildCalls (agents : List B) (E : List (Nat × Nat)) : List (Network.Op B Unit Unit) :=
  agents.map .addNode ++ E.filterMap (fun e => (agents[e.1]?).bind (fun u => (agents[e.2]?).map (fun v => .addEdge u v .simple)))

end Verif.Sync
