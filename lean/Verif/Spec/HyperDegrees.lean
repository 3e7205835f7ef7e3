import Verif.Spec.HNetwork

/-!
Words for the degrees of a hypernetwork.
-/

namespace Verif.HNetwork

variable {K O L W : Type} [DecidableEq K]

/-- The nodes that are added by the calls, in the order of the calls. -/
def nodesAdded : List (Op O L W) → List O
  | [] => []
  | .addNode u :: ops => u :: nodesAdded ops
  | _ :: ops => nodesAdded ops

/-- Nodes are added once and never removed, and no hyperedge is added with the same node twice. -/
def OnceEach (ident : O → K) (n : HNet K O L W) (op : Op O L W) : Prop := NodesOnlyAdded ident n op ∧ DistinctIds ident n op

/-- The list `hs` has each hyperedge that some of the nodes lists, once. -/
structure Enumerates (ident : O → K) (n : HNet K O L W) (us : List O) (hs : List (HEdge L W)) : Prop where
  once : hs.Pairwise (fun a b => ¬ SameNodes a b)
  listed : ∀ h ∈ hs, ∃ u ∈ us, ∃ es, getEdges ident n u = some es ∧ h ∈ es
  all : ∀ u ∈ us, ∀ es, getEdges ident n u = some es → ∀ e ∈ es, ∃ h ∈ hs, SameNodes e h

end Verif.HNetwork
