import Verif.Model.Torus
import Mathlib.Data.Real.Basic

/-!
Specification of C242: distances form a metric.
-/

namespace Verif.Torus

/-- `d` is a metric on the positions, positions that are the `same` place being at distance 0. -/
structure IsMetric (d : Pos → Pos → ℝ) (same : Pos → Pos → Prop) : Prop where
  nonneg : ∀ p q, 0 ≤ d p q
  zero : ∀ p q, d p q = 0 ↔ same p q
  symm : ∀ p q, d p q = d q p
  triangle : ∀ p q r, d p r ≤ d p q + d q r

/-- The same place of a torus of size `w` by `h`: the coordinates differ by whole turns. -/
def SamePlace (w h : Rat) (p q : Pos) : Prop :=
  ∃ k m : Int, p.x = q.x + k * w ∧ p.y = q.y + m * h

/-- The position moved by `v`. -/
def moved (v p : Pos) : Pos := ⟨p.x + v.x, p.y + v.y⟩

end Verif.Torus
