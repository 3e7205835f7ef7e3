import Verif.Model.HNetwork
import Verif.Spec.RenameNetwork

/-!
Hypernetworks under other names: nodes, labels and weights replaced by others.
-/

namespace Verif.HNetwork

variable {O P L L' W W' : Type}

/-- A hyperedge with another label and weight, between the same ids. -/
def HEdge.rename (lab : L → L') (wt : W → W') (e : HEdge L W) : HEdge L' W' := ⟨e.nodes, e.label.map lab, e.weight.map wt⟩

/-- The call under the new names. -/
def Op.rename (φ : O → P) (lab : L → L') (wt : W → W') : Op O L W → Op P L' W'
  | .addNode u => .addNode (φ u)
  | .addEdge us o => .addEdge (us.map φ) (o.rename lab wt)
  | .removeEdge us => .removeEdge (us.map φ)
  | .removeObject u => .removeObject (φ u)
  | .removeAllEdges => .removeAllEdges
  | .updateNode u => .updateNode (φ u)
  | .update => .update

end Verif.HNetwork
