import Verif.Model.MachineField
import Verif.Spec.Others
import Verif.Spec.Reorder
import Verif.Spec.Rename

/-!
Programs on `Field2D` with machine floats under other names, without other objects, in another order.
-/

namespace Verif.Machine

open Grid
open DenseI32 (Mode)

variable {O P : Type}

/-- The call under the new names. -/
def OpF.rename (φ : O → P) : OpF O → OpF P
  | .place o l => .place (φ o) l
  | .remove o l => .remove (φ o) l
  | .update => .update
  | .lazyUpdate => .lazyUpdate

/-- The call is about an object of the set, or about no particular object. -/
def OpF.about (S : O → Bool) : OpF O → Bool
  | .place o _ => S o
  | .remove o _ => S o
  | _ => true

/-- The object a call places or removes. -/
def OpF.object : OpF O → Option O
  | .place o _ => some o
  | .remove o _ => some o
  | _ => none

/-- Both calls place or remove an object, and the objects are different. -/
def OpF.Independent [BEq O] (a b : OpF O) : Prop :=
  ∃ x y, a.object = some x ∧ b.object = some y ∧ (x == y) = false ∧ (y == x) = false

/-- A new field and the calls made on it, the newest first. -/
def made [BEq O] (rnd : Rat → Rat) (m : Mode) (w h d : F) (t : Bool) (hist : List (OpF O)) : Option (FieldF O) :=
  (new rnd m w h d t).bind (fun f => run rnd m f hist)

/-- The answers of the second field are those of the first one, passed through `a` (for the lists of objects); a search is told by
`locOf` where an object is. -/
structure AnswersBy (rnd root : Rat → Rat) (m : Mode) (same : Option (List O) → Option (List P) → Prop)
    (locs : (O → PosF) → (P → PosF) → Prop) (f : FieldF O) (f' : FieldF P) : Prop where
  objects : ∀ p, same (getObjects rnd m f p) (getObjects rnd m f' p)
  unbuffered : ∀ p, same (getObjectsUnbuffered rnd m f p) (getObjectsUnbuffered rnd m f' p)
  near : ∀ locOf locOf', locs locOf locOf' → ∀ p dis,
    same (getNeighborsWithinDistance rnd root m f locOf p dis) (getNeighborsWithinDistance rnd root m f' locOf' p dis)
  relaxed : ∀ p dis, same (getNeighborsWithinRelaxDistance rnd m f p dis) (getNeighborsWithinRelaxDistance rnd m f' p dis)

end Verif.Machine
