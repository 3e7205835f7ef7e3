import Verif.Spec.ParNetwork

/-!
Vocabulary for the changes several agents make to the edges of one network within a step.
-/

namespace Verif.Network

variable {K O L W : Type} [DecidableEq K]

/-- A call that adds or removes one edge. -/
def Op.isEdgeCall : Op O L W → Bool
  | .addEdge _ _ _ => true
  | .removeEdge _ _ => true
  | _ => false

/-- A call that adds one edge. -/
def Op.isAddition : Op O L W → Bool
  | .addEdge _ _ _ => true
  | _ => false

/-- The two nodes the call is about, in either order. -/
def Op.isAbout (ident : O → K) (k k' : K) : Op O L W → Bool
  | .addEdge u v _ => (ident u = k ∧ ident v = k') ∨ (ident u = k' ∧ ident v = k)
  | .removeEdge u v => (ident u = k ∧ ident v = k') ∨ (ident u = k' ∧ ident v = k)
  | _ => false

/-- The edge joins these two ids, in either direction. -/
def joins (a b : Nat) (e : Edge L W) : Bool := (e.u = a ∧ e.v = b) ∨ (e.u = b ∧ e.v = a)

/-- The same edges, up to order. -/
def SameEdges (x y : Option (List (Edge L W))) : Prop :=
  (x = none ∧ y = none) ∨ ∃ l l', x = some l ∧ y = some l' ∧ l.Perm l'

/-- The same calls about every two nodes: either in the same order, or in any order if all of them are additions. -/
def SamePerPair (ident : O → K) (ops ops' : List (Op O L W)) : Prop :=
  ∀ k k', ops.filter (Op.isAbout ident k k') = ops'.filter (Op.isAbout ident k k') ∨
    ((ops.filter (Op.isAbout ident k k')).Perm (ops'.filter (Op.isAbout ident k k')) ∧
      ∀ op ∈ ops.filter (Op.isAbout ident k k'), op.isAddition = true)

/-- Agents, each with the calls it makes in one step: only one of them changes the edges between two given nodes, or
all of them only add edges there. -/
def NoConflict (ident : O → K) (agents : List (List (Op O L W))) : Prop :=
  ∀ k k', agents.Pairwise (fun x y => x.all (fun op => !op.isAbout ident k k') ∨ y.all (fun op => !op.isAbout ident k k')) ∨
    ∀ x ∈ agents, ∀ op ∈ x, op.isAbout ident k k' = true → op.isAddition = true

end Verif.Network
