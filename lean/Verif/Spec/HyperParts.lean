import Verif.Spec.HyperDegrees

/-!
Specification of C268: parts of a hypernetwork without hyperedges between them.
-/

namespace Verif.HNetwork

variable {K O L W : Type} [DecidableEq K]

/-- The call joins or separates nodes of one part only. -/
def Op.Within (ident : O → K) (P : K → Bool) : Op O L W → Prop
  | .addEdge us _ => ∀ u ∈ us, ∀ v ∈ us, P (ident u) = P (ident v)
  | .removeEdge us => ∀ u ∈ us, ∀ v ∈ us, P (ident u) = P (ident v)
  | _ => True

/-- The call is about nodes of this part, or about the whole hypernetwork. -/
def Op.about (ident : O → K) (P : K → Bool) : Op O L W → Bool
  | .addNode u => P (ident u)
  | .addEdge us _ => us.all (fun u => P (ident u))
  | .removeEdge us => us.all (fun u => P (ident u))
  | .removeObject u => P (ident u)
  | .updateNode u => P (ident u)
  | .removeAllEdges => true
  | .update => true

/-- What `get_edges` shows of a node, with the nodes the ids stand for. -/
def edgesShown (ident : O → K) (n : HNet K O L W) (u : O) : Option (List (List (Option O) × Option L × Option W)) :=
  (getEdges ident n u).map (List.map (fun e => (e.nodes.map (getObject n), e.label, e.weight)))

end Verif.HNetwork
