import Verif.Spec.Explore
import Mathlib.Data.List.Forall2

/-! Specification of C278: an exploration may be split into several. -/

namespace Verif.Explore

variable {V S : Type}

/-- What the rows of an exploration say, but for the numbers of the configurations: the repetition and the state at its end. -/
def outcomes (rows : List (Row S)) : List (Nat × S) := rows.map (fun r => (r.confRep, r.state))

/-- The states only. -/
def finals (rows : List (Row S)) : List S := rows.map (fun r => r.state)

/-- Each list has the values of the other, in any order. -/
def SameValues : List (List V) → List (List V) → Prop := List.Forall₂ List.Perm

end Verif.Explore
