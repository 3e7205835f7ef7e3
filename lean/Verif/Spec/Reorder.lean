import Verif.Spec.ObjectGrid

/-!
The order of the calls within a step: programs that differ in the order of calls about different objects.
-/

namespace Verif.Grid

/-- Two programs that differ in the order of neighbouring calls related by `R`. -/
inductive Reorder {α : Type} (R : α → α → Prop) : List α → List α → Prop where
  | refl (l : List α) : Reorder R l l
  | cons (a : α) {l l' : List α} : Reorder R l l' → Reorder R (a :: l) (a :: l')
  | swap {a b : α} (l : List α) : R a b → Reorder R (a :: b :: l) (b :: a :: l)
  | trans {l l' l'' : List α} : Reorder R l l' → Reorder R l' l'' → Reorder R l l''

variable {O : Type} [BEq O]

/-- The object a call places or removes. -/
def ObjOp.object : ObjOp O → Option O
  | .place o _ => some o
  | .remove o _ => some o
  | _ => none

/-- Both calls place or remove an object, and the objects are different. -/
def ObjOp.Independent (a b : ObjOp O) : Prop :=
  ∃ x y, a.object = some x ∧ b.object = some y ∧ (x == y) = false ∧ (y == x) = false

/-- A closure applied to all objects reads or writes, but not both. -/
def ObjOp.OneSided : ObjOp O → Prop
  | .apply _ opt => opt ≠ .READWRITE
  | _ => True

/-- Two answers of a query for a bag that list the same objects. -/
def SameBag (a b : Option (List O)) : Prop :=
  match a, b with
  | none, none => True
  | some x, some y => x.Perm y
  | _, _ => False

end Verif.Grid
