import Verif.Model.Network

/-!
Networks under other names: nodes, labels and weights replaced by others.
-/

namespace Verif.Network

variable {O P L L' W W' : Type}

/-- The options of an edge with another label and weight. -/
def EdgeOptions.rename (lab : L → L') (wt : W → W') : EdgeOptions L W → EdgeOptions L' W'
  | .simple => .simple
  | .labeled l => .labeled (lab l)
  | .weighted w => .weighted (wt w)
  | .weightedLabeled l w => .weightedLabeled (lab l) (wt w)

/-- An edge with another label and weight, between the same ids. -/
def Edge.rename (lab : L → L') (wt : W → W') (e : Edge L W) : Edge L' W' := ⟨e.u, e.v, e.label.map lab, e.weight.map wt⟩

/-- The call under the new names. -/
def Op.rename (φ : O → P) (lab : L → L') (wt : W → W') : Op O L W → Op P L' W'
  | .addNode u => .addNode (φ u)
  | .addEdge u v o => .addEdge (φ u) (φ v) (o.rename lab wt)
  | .removeEdge u v => .removeEdge (φ u) (φ v)
  | .removeIncoming u => .removeIncoming (φ u)
  | .removeOutgoing u => .removeOutgoing (φ u)
  | .removeNode u => .removeNode (φ u)
  | .removeAllEdges => .removeAllEdges
  | .updateNode u => .updateNode (φ u)
  | .update => .update
  | .lazyUpdate => .lazyUpdate

end Verif.Network
