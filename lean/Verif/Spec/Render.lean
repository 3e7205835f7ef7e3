import Verif.Model.Render
import Mathlib.Data.Real.Basic

/-!
What should be seen of textures and arrows.
-/

namespace Verif.Visual

/-- What a screen should have of the field number `t`: exactly one entity, in the middle, which shows this image. -/
def ShowsField (c : Screen) (d : Desc) (t : Nat) (im : Img) : Prop :=
  ∃ e, c.texs.filter (fun e => e.marker == t) = [e] ∧ (e.place.1, e.place.2.1) = (d.centerX - 1 / 2, d.centerY) ∧
    c.assets[e.handle]? = some im

/-- The fixed time steps and buttons among the events. -/
def appEvents : List BEvent → List Event
  | [] => []
  | .app e :: es => e :: appEvents es
  | .frame :: es => appEvents es

/-- The square of the distance. -/
def dist2 (p q : ℝ × ℝ) : ℝ := (p.1 - q.1) ^ 2 + (p.2 - q.2) ^ 2

/-- The scalar product of the directions from `o` to `p` and to `q`. -/
def dot (o p q : ℝ × ℝ) : ℝ := (p.1 - o.1) * (q.1 - o.1) + (p.2 - o.2) * (q.2 - o.2)

/-- The oriented area spanned by the directions from `o` to `p` and to `q`. -/
def cross (o p q : ℝ × ℝ) : ℝ := (p.1 - o.1) * (q.2 - o.2) - (p.2 - o.2) * (q.1 - o.1)

end Verif.Visual
