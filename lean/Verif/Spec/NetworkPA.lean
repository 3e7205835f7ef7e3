import Verif.Spec.Network

/-! Vocabulary for preferential attachment (C51). -/

namespace Verif.Network

variable {K O L W : Type} [DecidableEq K]

/-- What `choose_multiple_weighted` promises: asked for at most as many elements as there are, all with positive
weight, it returns that many different positions. Nothing is assumed about which. -/
def GoodPick (pick : Nat → List (O × Int × Nat) → Nat → List Nat) : Prop :=
  ∀ i dist amount, (∀ x ∈ dist, 0 < x.2.1) → amount ≤ dist.length →
    (pick i dist amount).Nodup ∧ (pick i dist amount).length = amount ∧ ∀ c ∈ pick i dist amount, c < dist.length

/-- Targets: node `j` (of `N`, numbered in the order of the node set) chose `T j`, `min j m` different earlier nodes. -/
def GoodTargets (N m : Nat) (T : Nat → List Nat) : Prop :=
  ∀ j, 2 ≤ j → j < N → (T j).Nodup ∧ (T j).length = min j m ∧ ∀ t ∈ T j, t < j

/-- The edges of the promised graph: 0 - 1, and from each later node to its targets. -/
def IsEdge (N : Nat) (T : Nat → List Nat) (a b : Nat) : Prop := (a = 0 ∧ b = 1) ∨ (2 ≤ a ∧ a < N ∧ b ∈ T a)

instance (N : Nat) (T : Nat → List Nat) (a b : Nat) : Decidable (IsEdge N T a b) := by unfold IsEdge; infer_instance

/-- The degree of node `j` in a graph given by its edges, in either direction. -/
def degreeIn (E : List (Nat × Nat)) (j : Nat) : Int := (E.countP (fun e => e.1 == j) + E.countP (fun e => e.2 == j) : Nat)

/-- The first `i` nodes with their degrees as weights, and their positions. -/
def byDegree (node : Nat → O) (E : List (Nat × Nat)) (i : Nat) : List (O × Int × Nat) :=
  (List.range i).map (fun j => (node j, degreeIn E j, j))

/-- The textbook process: starting from the edges `E`, each of the nodes `i`, `i + 1`, … (`k` of them) is joined to `min i m` earlier
nodes, drawn by `pick` with their present degrees as weights. -/
def textbook (pick : Nat → List (O × Int × Nat) → Nat → List Nat) (node : Nat → O) (m : Nat) :
    Nat → Nat → List (Nat × Nat) → List (Nat × Nat)
  | 0, _, E => E
  | k + 1, i, E => textbook pick node m k (i + 1) (E ++ (pick i (byDegree node E i) (min i m)).map (fun t => (i, t)))

/-- A path along the stored edges, in either direction. -/
inductive Side.Joined (s : Side K O L W) : Nat → Nat → Prop
  | refl (a : Nat) : Side.Joined s a a
  | step (a b c : Nat) : (s.mult a b ≠ 0 ∨ s.mult b a ≠ 0) → Side.Joined s b c → Side.Joined s a c

end Verif.Network
