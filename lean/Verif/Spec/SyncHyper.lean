import Verif.Spec.SyncNodes
import Verif.Model.SyncHyper

/-! What the agents of a hypernetwork see. -/

namespace Verif.Sync

variable {F B K : Type}

/-- The hyperedges that node `i` belongs to, in the order in which they were added. -/
def hyperOf (H : List (List Nat)) (i : Nat) : List (List Nat) := H.filter (fun h => h.contains i)

/-- What a node sees: for each of its hyperedges the records of the members. -/
def hyperView [DecidableEq K] (ident : B → K) (iter : List Nat → List Nat) (H : List (List Nat)) (all : List B) (b : B) : List (List B) :=
  (hyperOf H (all.findIdx (fun x => decide (ident x = ident b)))).map (fun h => (iter h).filterMap (fun j => all[j]?))

/-- A hypernetwork shows these records: node number `i` is found under the id `i`, and its hyperedges are those it belongs to. -/
def HyperShows (get : F → Nat → Option B) (edges : F → B → List (List Nat)) (H : List (List Nat)) (f : F) (all : List B) : Prop :=
  ∀ i b, all[i]? = some b → get f i = some b ∧ edges f b = hyperOf H i

/-- Hyperedges as a program adds them: members given once, numbers of agents, at least one member, and no two with the same members. -/
structure HyperOk (N : Nat) (H : List (List Nat)) : Prop where
  nonempty : ∀ h ∈ H, h ≠ []
  members : ∀ h ∈ H, h.Nodup ∧ ∀ j ∈ h, j < N
  different : H.Pairwise (fun h h' => ¬ ∀ j, j ∈ h ↔ j ∈ h')

end Verif.Sync
