import Verif.Spec.Mutual
import Verif.Spec.Metric

/-!
Specification of C244: the neighbours of an object do not depend on where in the field they are.
-/

namespace Verif.Field2D

open Torus

variable {O : Type} [BEq O]

/-- The call made at the place moved by `v`. -/
def FieldOp.moved (v : Pos) : FieldOp O → FieldOp O
  | .place o l => .place o (Torus.moved v l)
  | .remove o l => .remove o (Torus.moved v l)
  | .update => .update
  | .lazyUpdate => .lazyUpdate

/-- A vector of whole squares. -/
def WholeSquares (d : Rat) (v : Pos) : Prop := ∃ i j : Int, v.x = i * d ∧ v.y = j * d

/-- Both searches come to an end and find the same of the objects that satisfy `P`. -/
def SameAnswers (P : O → Prop) (a b : Option (List O)) : Prop :=
  ∃ r r', a = some r ∧ b = some r' ∧ ∀ o, P o → (o ∈ r ↔ o ∈ r')

end Verif.Field2D
