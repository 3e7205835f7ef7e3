import Verif.Model.HNetwork

/-! Vocabulary for the hypernetwork properties. -/

namespace Verif.HNetwork

variable {K O L W : Type} [DecidableEq K]

/-- The list of an id (empty if there is none). -/
def listOf (m : HEdgeMap L W) (i : Nat) : List (HEdge L W) := (HMap.get m i).getD []

/-- The same hyperedge: the same members. -/
def SameNodes (a b : HEdge L W) : Prop := ∀ i, i ∈ a.nodes ↔ i ∈ b.nodes

/-- Every hyperedge listed for an id contains it. -/
def Members (m : HEdgeMap L W) : Prop := ∀ i, ∀ e ∈ listOf m i, i ∈ e.nodes

/-- A hyperedge listed for one id is listed for each of its members. -/
def Complete (m : HEdgeMap L W) : Prop :=
  ∀ i, ∀ e ∈ listOf m i, ∀ j ∈ e.nodes, ∃ e' ∈ listOf m j, SameNodes e' e

/-- No id lists the same hyperedge twice. -/
def NoRepeats (m : HEdgeMap L W) : Prop := ∀ i, (listOf m i).Pairwise (fun a b => ¬ SameNodes a b)

/-- `P` holds of every call of the history at the moment it is made. -/
def Careful (ident : O → K) (P : HNet K O L W → Op O L W → Prop) : HNet K O L W → List (Op O L W) → Prop
  | _, [] => True
  | n, op :: ops => P n op ∧ ∀ n', exec ident n op = some n' → Careful ident P n' ops

/-- `add_edge` is called with nodes of different ids. -/
def DistinctIds (ident : O → K) (n : HNet K O L W) : Op O L W → Prop
  | .addEdge us _ => ∀ ids, idsOf ident n us = some ids → ids.Nodup
  | _ => True

/-- Nodes are added once and never removed. -/
def NodesOnlyAdded (ident : O → K) (n : HNet K O L W) : Op O L W → Prop
  | .addNode u => HMap.get n.nodes2id (ident u) = none
  | .removeObject _ => False
  | _ => True

end Verif.HNetwork
