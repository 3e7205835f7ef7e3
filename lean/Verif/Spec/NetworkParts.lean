import Verif.Spec.Degrees

/-!
Specification of C265: parts of a network without edges between them.
-/

namespace Verif.Network

variable {K O L W : Type} [DecidableEq K]

/-- The call joins or separates nodes of one part only. -/
def Op.Within (ident : O → K) (P : K → Bool) : Op O L W → Prop
  | .addEdge u v _ => P (ident u) = P (ident v)
  | .removeEdge u v => P (ident u) = P (ident v)
  | _ => True

/-- The call is about nodes of this part, or about the whole network. -/
def Op.about (ident : O → K) (P : K → Bool) : Op O L W → Bool
  | .addNode u => P (ident u)
  | .addEdge u _ _ => P (ident u)
  | .removeEdge u _ => P (ident u)
  | .removeIncoming u => P (ident u)
  | .removeOutgoing u => P (ident u)
  | .removeNode u => P (ident u)
  | .updateNode u => P (ident u)
  | .removeAllEdges => true
  | .update => true
  | .lazyUpdate => true

/-- What `get_edges` shows of a node, with the nodes the ids stand for. -/
def edgesShown (ident : O → K) (n : Net K O L W) (u : O) : Option (List (Option O × Option O × Option L × Option W)) :=
  (getEdges ident n u).map (List.map (fun e => (getObject n e.u, getObject n e.v, e.label, e.weight)))

end Verif.Network
