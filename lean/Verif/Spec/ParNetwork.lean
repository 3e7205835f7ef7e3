import Verif.Model.ParNetwork
import Verif.Spec.Network

/-!
Vocabulary for the properties of `Network` under the feature `parallel`.
-/

namespace Verif.ParNetwork

open Verif.Network (Edge Net Side Op Published)

variable {K O L W : Type} [DecidableEq K]

/-- Every query of the parallel network answers what the sequential network answers. -/
def SameAnswers (ident : O → K) (p : PNet K O L W) (n : Net K O L W) : Prop :=
  (∀ u, getEdges ident p u = some (Network.getEdges ident n u)) ∧
  (∀ u v, getEdge ident p u v = Network.getEdge ident n u v) ∧
  (∀ i, getObject p i = some (Network.getObject n i))

/-- The two networks answer every query alike. -/
def SameReads (ident : O → K) (p p' : PNet K O L W) : Prop :=
  (∀ u, getEdges ident p u = getEdges ident p' u) ∧ (∀ u v, getEdge ident p u v = getEdge ident p' u v) ∧
  (∀ i, getObject p i = getObject p' i)

/-- The calls for which the two implementations agree: new nodes, edges, edges removed between nodes that have been
published (or that are not there), replaced nodes and publications. No node is removed, and the lists are not
cleared. -/
def Gentle (ident : O → K) (n : Net K O L W) : Op O L W → Prop
  | .addNode u => HMap.get n.w.nodes2id (ident u) = none
  | .removeEdge u v => HMap.get n.r.nodes2id (ident u) = HMap.get n.w.nodes2id (ident u) ∧
      HMap.get n.r.nodes2id (ident v) = HMap.get n.w.nodes2id (ident v)
  | .removeIncoming _ => Published n
  | .removeOutgoing _ => Published n
  | .removeNode _ => False
  | .removeAllEdges => False
  | _ => True

/-- `P` holds of every call of the history at the moment it is made. -/
def Careful (ident : O → K) (P : PNet K O L W → Op O L W → Prop) : PNet K O L W → List (Op O L W) → Prop
  | _, [] => True
  | p, op :: ops => P p op ∧ ∀ p', exec ident p op = some p' → Careful ident P p' ops

/-- Nodes are added once and never removed. -/
def NodesOnlyAdded (ident : O → K) (p : PNet K O L W) : Op O L W → Prop
  | .addNode u => HMap.get p.nodes2id (ident u) = none
  | .removeNode _ => False
  | _ => True

/-- The list `get_edges` shows for a node (empty if it shows none). -/
def listOf (ident : O → K) (p : PNet K O L W) (u : O) : List (Edge L W) := ((getEdges ident p u).getD none).getD []

/-- The two tables of written ids fit together: the id of a node leads to an object with its identity, and an object
found under an id has that id. -/
def IdsMatch (ident : O → K) (p : PNet K O L W) : Prop :=
  (∀ k i, HMap.get p.nodes2id k = some i → ∃ o, DBDashMap.getWrite p.id2nodes i = some (some o) ∧ ident o = k) ∧
  (∀ i o, DBDashMap.getWrite p.id2nodes i = some (some o) → HMap.get p.nodes2id (ident o) = some i)

/-- The list that the next publication will show for an id. -/
def writtenList (p : PNet K O L W) (i : Nat) : List (Edge L W) := ((DBDashMap.getWrite p.edges i).getD none).getD []

/-- The node that `get_object` shows for an id has not been removed since. -/
def stillThere (ident : O → K) (p : PNet K O L W) (i : Nat) : Bool :=
  match getObject p i with
  | some (some o) => (HMap.get p.nodes2id (ident o)).isSome
  | _ => false

/-- What `choose_multiple_weighted` promises: that many different positions, or all if there are fewer. -/
def GoodChoice (pick : List (O × Nat) → Nat → List Nat) : Prop :=
  ∀ dist amount, (pick dist amount).Nodup ∧ (pick dist amount).length = min amount dist.length ∧
    ∀ c ∈ pick dist amount, c < dist.length

end Verif.ParNetwork
