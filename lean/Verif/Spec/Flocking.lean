import Verif.Model.Flockers
import Mathlib.Algebra.Order.Field.Rat

/-!
What birds should do: keep their speed and steer by the means of what they see.
-/

namespace Verif.Flockers

open Torus

/-- `d` leads from `b` to `a` on a circle of length `dim`, the short way round. -/
def ShortWay (dim a b d : Rat) : Prop := (∃ k : Int, d = a - b + k * dim) ∧ -(dim / 2) ≤ d ∧ d ≤ dim / 2

/-- A square root with relative error about `δ / 2`. -/
def ApproxSqrt (δ : Rat) (sqrt : Rat → Rat) : Prop :=
  ∀ q, 0 ≤ q → 0 ≤ sqrt q ∧ (1 - δ) * q ≤ sqrt q * sqrt q ∧ sqrt q * sqrt q ≤ (1 + δ) * q

/-- The square of the length. -/
def lengthSq (v : Pos) : Rat := v.x * v.x + v.y * v.y

/-- The mean of some numbers, 0 if there are none. -/
def mean (l : List Rat) : Rat := l.sum / l.length

/-- The birds seen that are other birds. -/
def others (self : Bird) (seen : List Bird) : List Bird := seen.filter (fun b => self.id != b.id)

/-- How strongly a bird at this offset is avoided, per unit of the offset. -/
def push (off : Pos) : Rat := 1 / (lengthSq off * lengthSq off + 1)

/-- The direction `v` is the sum of a tenth of the mean way to the other birds, 400 times the mean of the ways away from them, each weighted by `push`,
`heading` times their mean heading, a weighted random vector and the own heading. `off b` leads from `b` to the bird itself. -/
def Steers (weight : Rat) (self : Bird) (bs : List Bird) (off : Bird → Pos) (heading : Rat) (rand v : Pos) : Prop :=
  v.x = -(mean (bs.map (fun b => (off b).x))) / 10 + 400 * mean (bs.map (fun b => (off b).x * push (off b))) +
    heading * mean (bs.map (fun b => b.lastD.x)) + weight * rand.x + self.lastD.x ∧
  v.y = -(mean (bs.map (fun b => (off b).y))) / 10 + 400 * mean (bs.map (fun b => (off b).y * push (off b))) +
    heading * mean (bs.map (fun b => b.lastD.y)) + weight * rand.y + self.lastD.y

end Verif.Flockers
