import Verif.Spec.ObjectGrid

/-!
Objects do not influence each other: what a program says about some of its objects does not depend on the calls that are about
the other ones.
-/

namespace Verif.Grid

variable {O : Type} [BEq O]

/-- Equal objects are both in the set or both outside. -/
def Respects (P : O → Bool) : Prop := ∀ a b : O, (a == b) = true → P a = P b

/-- The call is about an object of the set, or about no particular object. -/
def ObjOp.about (P : O → Bool) : ObjOp O → Bool
  | .place o _ => P o
  | .remove o _ => P o
  | _ => true

/-- A closure applied to all objects reads or writes (but not both) and takes no object into the set or out of it. -/
def ObjOp.Keeps (P : O → Bool) : ObjOp O → Prop
  | .apply f opt => opt ≠ .READWRITE ∧ ∀ l o x, f l o = some x → P x = P o
  | _ => True

/-- The calls of a program that are about the objects of the set. -/
def aboutOnly (P : O → Bool) (hist : List (ObjOp O)) : List (ObjOp O) := hist.filter (fun op => op.about P)

/-- The objects of the set in a bag; no bag if there are none. -/
def only (P : O → Bool) : Option (List O) → Option (List O)
  | none => none
  | some b => if (b.filter P).isEmpty then none else some (b.filter P)

end Verif.Grid
