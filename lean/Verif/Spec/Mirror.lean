import Verif.Spec.Field2D
import Verif.Spec.ObjectGrid

/-!
The two axes exchanged.
-/

namespace Verif.Torus

/-- The position with its coordinates exchanged. -/
def Pos.mirror (p : Pos) : Pos := ⟨p.y, p.x⟩

end Verif.Torus

namespace Verif.Grid

/-- The location with its coordinates exchanged. -/
def Loc.mirror (l : Loc) : Loc := ⟨l.y, l.x⟩

/-- The call at the location with its coordinates exchanged. -/
def ObjOp.mirror {O : Type} : ObjOp O → ObjOp O
  | .place o l => .place o l.mirror
  | .remove o l => .remove o l.mirror
  | .update => .update
  | .lazyUpdate => .lazyUpdate
  | .apply f opt => .apply (fun l o => f l.mirror o) opt

/-- The call at the location with its coordinates exchanged. -/
def NumOp.mirror {T : Type} : NumOp T → NumOp T
  | .set v l => .set v l.mirror
  | .remove l => .remove l.mirror
  | .update => .update
  | .lazyUpdate => .lazyUpdate
  | .apply f opt => .apply f opt

end Verif.Grid

namespace Verif.Field2D

/-- The call at the position with its coordinates exchanged. -/
def FieldOp.mirror {O : Type} : FieldOp O → FieldOp O
  | .place o l => .place o l.mirror
  | .remove o l => .remove o l.mirror
  | .update => .update
  | .lazyUpdate => .lazyUpdate

end Verif.Field2D
