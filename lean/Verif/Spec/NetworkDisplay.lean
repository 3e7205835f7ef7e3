import Verif.Model.Network

/-!
What printing a network should give: the adjacency matrix of the published network, row by row.
-/

namespace Verif.Network

variable {K O L W : Type} [DecidableEq K]

/-- `get_edges` of the node with id `i` shows an edge to id `j`. -/
def edgeShown (ident : O → K) (n : Net K O L W) (i j : Nat) : Bool :=
  match getObject n i with
  | some o => ((getEdges ident n o).getD []).any (fun e => e.v == j)
  | none => false

/-- An `m` by `m` matrix of zeros and ones, a dash after each row. -/
def matrixText (m : Nat) (entry : Nat → Nat → Bool) : List Char :=
  (List.range m).flatMap (fun i => (List.range m).map (fun j => if entry i j then '1' else '0') ++ ['-'])

/-- The text around it. -/
def matrixTitle (body : List Char) : List Char := "MATRIX:\n\"".toList ++ body ++ ['"']

end Verif.Network
