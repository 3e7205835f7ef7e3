import Verif.Spec.Hashes
import Verif.Spec.RenameNetwork
import Verif.Model.ParNetwork

/-!
Two runs of one program with networks under the feature `parallel`, in two processes.
-/

namespace Verif.ParNetwork

open Verif.Network (Edge Op)

variable {K K' O P L W : Type} [DecidableEq K] [DecidableEq K']

/-- The same edges in some order, or none in both. -/
def SameEdges : Option (List (Edge L W)) → Option (List (Edge L W)) → Prop := ParGrid.Both List.Perm

/-- Every query of the two networks has the same answer, up to the names; the calls that remove edges would report the same edges, those
that remove all edges of a node in some order. -/
structure PNet.Alike (ident : O → K) (ident' : P → K') (φ : O → P) (n : PNet K O L W) (n' : PNet K' P L W) : Prop where
  edges : ∀ u, getEdges ident' n' (φ u) = getEdges ident n u
  edge : ∀ u v, getEdge ident' n' (φ u) (φ v) = getEdge ident n u v
  object : ∀ i, getObject n' i = (getObject n i).map (Option.map φ)
  added : ∀ u v o, (addEdge ident' n' (φ u) (φ v) o).map Prod.snd = (addEdge ident n u v o).map Prod.snd
  removed : ∀ u v, (removeEdge ident' n' (φ u) (φ v)).map Prod.snd = (removeEdge ident n u v).map Prod.snd
  removedOf : ∀ inc u, ParGrid.Both (fun a b => SameEdges a.2 b.2) (removeEdgesOf ident inc n u) (removeEdgesOf ident' inc n' (φ u))
  removedNode : ∀ u, (removeNode ident' n' (φ u)).map Prod.snd = (removeNode ident n u).map Prod.snd
  nodes : DBDashMap.len n'.id2nodes = DBDashMap.len n.id2nodes

end Verif.ParNetwork
