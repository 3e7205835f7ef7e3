import Verif.Spec.Field2D

/-! Specification of C277: away from the border neither the size of a continuous field nor whether it is a torus matters. -/

namespace Verif.Field2D

open Torus

/-- The circle around a position lies inside the field and does not touch its border. -/
def CircleInside (w h : Rat) (p : Pos) (r : Rat) : Prop := r < p.x ∧ p.x + r < w ∧ r < p.y ∧ p.y + r < h

instance (w h : Rat) (p : Pos) (r : Rat) : Decidable (CircleInside w h p r) := by unfold CircleInside; infer_instance

end Verif.Field2D
