import Verif.Spec.Network

/-!
Specification of C243: the degrees of a network add up to its edges, counted by the answers of the calls.
-/

namespace Verif.Network

variable {K O L W : Type} [DecidableEq K]

/-- The number of edges `get_edges` shows for a node. -/
def degree (ident : O → K) (n : Net K O L W) (u : O) : Nat := ((getEdges ident n u).getD []).length

/-- The sum of the degrees of these nodes. -/
def degrees (ident : O → K) (n : Net K O L W) (us : List O) : Nat := (us.map (degree ident n)).sum

/-- The nodes that were added. -/
def nodesAdded : List (Op O L W) → List O
  | [] => []
  | .addNode u :: ops => u :: nodesAdded ops
  | _ :: ops => nodesAdded ops

/-- The number of edges after a call, from the number before it and the answer of the call. -/
def countEdges (ident : O → K) (n : Net K O L W) (e : Int) : Op O L W → Int
  | .addEdge u v o => if (addEdge ident n u v o).2.1 then e + 1 else e
  | .removeEdge u v =>
    match removeEdge ident n u v with
    | some (_, some _) => e - 1
    | _ => e
  | .removeIncoming u =>
    match removeEdgesOf ident true n u with
    | some (_, some l) => e - l.length
    | _ => e
  | .removeOutgoing u =>
    match removeEdgesOf ident false n u with
    | some (_, some l) => e - l.length
    | _ => e
  | .removeAllEdges => 0
  | _ => e

/-- The number of edges after a history, by the answers of its calls. -/
def edgesAfter (ident : O → K) : Net K O L W → Int → List (Op O L W) → Int
  | _, e, [] => e
  | n, e, op :: ops =>
    match exec ident n op with
    | none => countEdges ident n e op
    | some n' => edgesAfter ident n' (countEdges ident n e op) ops

/-- Edges are only removed between nodes that have one (or none) between them; a node has one loop (or none) when
its loop is removed. -/
def OneBetween (ident : O → K) (n : Net K O L W) : Op O L W → Prop
  | .removeEdge u v => ∀ uid vid, HMap.get n.r.nodes2id (ident u) = some uid →
      HMap.get n.r.nodes2id (ident v) = some vid →
      (uid ≠ vid → n.w.mult uid vid ≤ 1) ∧ (uid = vid → n.w.mult uid uid = 0 ∨ n.w.mult uid uid = 2)
  | .removeIncoming u => ∀ uid i, HMap.get n.r.nodes2id (ident u) = some uid → i ≠ uid → n.w.mult i uid ≤ 1
  | .removeOutgoing u => ∀ uid i, HMap.get n.r.nodes2id (ident u) = some uid → i ≠ uid → n.w.mult i uid ≤ 1
  | _ => True

/-- Nodes are added once and not removed, and in an undirected network edges are removed one by one. -/
def OneByOne (ident : O → K) (n : Net K O L W) (op : Op O L W) : Prop :=
  NodesOnlyAdded ident n op ∧ (n.direct = false → OneBetween ident n op)

end Verif.Network
