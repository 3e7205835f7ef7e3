import Verif.Model.SyncNodes
import Verif.Model.HNetwork

/-!
Model of the programs on hypernetworks, as in `Verif.Model.SyncNodes`: in its step an agent looks at the members of the hyperedges it
belongs to (`get_edges`, then `get_object` of each member), decides, and puts its new record with `update_node`.
`iter` is the order in which a `HashSet` yields its elements.
-/

namespace Verif.Sync

variable {B K : Type} [DecidableEq K]

/-- The calls of such an agent on an `HNetwork`: `get_edges(self)`, `get_object(i).unwrap()` for each member `i` of each hyperedge,
`update_node(self)`; `update` in the state (src/engine/fields/hnetwork.rs:306-314, 333-335, 580-590, 600-609). -/
def hnetOps (ident : B → K) (iter : List Nat → List Nat) : FieldOps (HNetwork.HNet K B Unit Unit) B (List (List B)) :=
  { look := fun n b => ((HNetwork.getEdges ident n b).getD []).mapM
      (fun e => (iter e.nodes).mapM (fun i => HNetwork.getObject n i))
    place := fun n b => some (HNetwork.updateNode ident n b)
    publish := fun n => some (HNetwork.update n) }

/-- The calls that make the hypernetwork: every agent becomes a node, then the hyperedges between the agents with these numbers are
added (src/engine/fields/hnetwork.rs:162-228). -/
def hyperCalls (agents : List B) (H : List (List Nat)) : List (HNetwork.Op B Unit Unit) :=
  agents.map .addNode ++ H.map (fun h => .addEdge (h.filterMap (fun i => agents[i]?)) .simple)

end Verif.Sync
