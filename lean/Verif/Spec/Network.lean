import Verif.Model.Network

/-!
Vocabulary for the network properties, in terms of the three published (or written) maps only.
-/

namespace Verif.Network

variable {K O L W : Type} [DecidableEq K]

/-- The adjacency list of an id (empty if there is none). -/
def Side.adj (s : Side K O L W) (i : Nat) : List (Edge L W) := (HMap.get s.edges i).getD []

/-- Number of edges from id `a` to id `b`. -/
def Side.mult (s : Side K O L W) (a b : Nat) : Nat := (s.adj a).countP (fun e => e.v == b)

/-- As many edges from `a` to `b` as from `b` to `a`. -/
def Side.Symmetric (s : Side K O L W) : Prop := ∀ a b, s.mult a b = s.mult b a

/-- A read query only sees the read side. -/
def SameReads (ident : O → K) (n n' : Net K O L W) : Prop :=
  (∀ u, getEdges ident n u = getEdges ident n' u) ∧ (∀ u v, getEdge ident n u v = getEdge ident n' u v) ∧
  (∀ i, getObject n i = getObject n' i) ∧ (∀ u, getId ident n u = getId ident n' u)

/-- Not one of the publishing calls. -/
def Op.isWrite : Op O L W → Bool
  | .update => false
  | .lazyUpdate => false
  | _ => true

/-- `P` holds of every call of the history at the moment it is made. -/
def Careful (ident : O → K) (P : Net K O L W → Op O L W → Prop) : Net K O L W → List (Op O L W) → Prop
  | _, [] => True
  | n, op :: ops => P n op ∧ ∀ n', exec ident n op = some n' → Careful ident P n' ops

/-- The two nodes maps are inverse to each other: ids are unique and every id shows its node. -/
def Side.IdsUnique (ident : O → K) (s : Side K O L W) : Prop :=
  (∀ k i, HMap.get s.nodes2id k = some i → ∃ o, HMap.get s.id2nodes i = some o ∧ ident o = k) ∧
  (∀ i o, HMap.get s.id2nodes i = some o → HMap.get s.nodes2id (ident o) = some i)

/-- Every edge starts at the id it is listed for and ends at the id of a present node, and only present
nodes have lists. -/
def Side.EdgesKnown (s : Side K O L W) : Prop :=
  (∀ i e, e ∈ s.adj i → e.u = i ∧ (HMap.get s.id2nodes e.v).isSome = true) ∧
  (∀ i es, HMap.get s.edges i = some es → (HMap.get s.id2nodes i).isSome = true)

/-- Every present node has been published under its current id. -/
def Published (n : Net K O L W) : Prop :=
  ∀ k i, HMap.get n.w.nodes2id k = some i → HMap.get n.r.nodes2id k = some i

/-- Every present node has an adjacency list (true until `remove_all_edges`). -/
def Side.Listed (s : Side K O L W) : Prop :=
  ∀ i o, HMap.get s.id2nodes i = some o → ∃ es, HMap.get s.edges i = some es

/-- The edges that end in `uid` are such that `remove_node` finds all of them: at most one from each other node
in a directed network; in an undirected one, the list of `uid` shows them too. -/
def Removable (n : Net K O L W) (uid : Nat) : Prop :=
  ∀ i, i ≠ uid →
    (n.direct = true → n.w.mult i uid ≤ 1) ∧
    (n.direct = false → n.w.mult i uid ≠ 0 → n.w.mult uid i ≠ 0)

/-- Nodes are added under a free id and removed only when `remove_node` can find all their edges. -/
def NodesCareful (ident : O → K) (n : Net K O L W) : Op O L W → Prop
  | .addNode u => HMap.get n.w.nodes2id (ident u) = none ∧ HMap.get n.w.id2nodes n.w.nodes2id.length = none
  | .removeNode u => ∀ uid, HMap.get n.w.nodes2id (ident u) = some uid →
      Published n ∧ n.w.Listed ∧ Removable n uid
  | _ => True

/-- Nodes are added once and never removed. -/
def NodesOnlyAdded (ident : O → K) (n : Net K O L W) : Op O L W → Prop
  | .addNode u => HMap.get n.w.nodes2id (ident u) = none
  | .removeNode _ => False
  | _ => True

/-- `remove_edge` is only used between nodes with at most one edge (or for loops), directly or through
`remove_incoming_edges` / `remove_outgoing_edges`. -/
def PairsSimple (ident : O → K) (n : Net K O L W) : Op O L W → Prop
  | .removeEdge u v => ∀ uid vid, HMap.get n.r.nodes2id (ident u) = some uid →
      HMap.get n.r.nodes2id (ident v) = some vid → uid = vid ∨ n.w.mult uid vid ≤ 1
  | .removeIncoming u => ∀ uid i, HMap.get n.r.nodes2id (ident u) = some uid → i ≠ uid → n.w.mult i uid ≤ 1
  | .removeOutgoing u => ∀ uid i, HMap.get n.r.nodes2id (ident u) = some uid → i ≠ uid → n.w.mult i uid ≤ 1
  | _ => True

/-- The label an edge made with these options should have. -/
def EdgeOptions.label? : EdgeOptions L W → Option L
  | .simple => none
  | .labeled l => some l
  | .weighted _ => none
  | .weightedLabeled l _ => some l

/-- The weight an edge made with these options should have. -/
def EdgeOptions.weight? : EdgeOptions L W → Option W
  | .simple => none
  | .labeled _ => none
  | .weighted w => some w
  | .weightedLabeled _ w => some w

/-- Both restrictions. -/
def CarefulAndSimple (ident : O → K) (n : Net K O L W) (op : Op O L W) : Prop :=
  NodesCareful ident n op ∧ PairsSimple ident n op

/-- `PairsSimple` and no `remove_node`. -/
def SimpleNoRemoval (ident : O → K) (n : Net K O L W) (op : Op O L W) : Prop :=
  PairsSimple ident n op ∧ ∀ u, op ≠ .removeNode u

end Verif.Network
