import Mathlib.Probability.Distributions.Gaussian.Real
import Mathlib.Probability.CDF
import Verif.Model.Improvement

/-! The expected improvement over the best point known (C237), said without a formula. -/

namespace Verif.Improvement

open MeasureTheory ProbabilityTheory

variable {X : Type}

/-- What the objective function of `x` is expected to be above `best`, if it is a normal variable with the predicted mean and
variance: the mean of `max (y - best) 0`. -/
noncomputable def improvement (p : Predict X) (best : ℝ) (x : X) : ℝ :=
  ∫ y, max (y - best) 0 ∂(gaussianReal (p.mean x) (p.var x).toNNReal)

/-- `best` is the largest mean predicted for the points evaluated. -/
def IsBest (p : Predict X) (xInit : List X) (best : ℝ) : Prop :=
  (∃ x ∈ xInit, p.mean x = best) ∧ ∀ x ∈ xInit, p.mean x ≤ best

/-- The crate computes the standard normal distribution, and `f64::MIN` is below every prediction and below 0. -/
structure Standard (p : Predict X) : Prop where
  cdf : p.cdf = ProbabilityTheory.cdf (gaussianReal 0 1)
  pdf : p.pdf = gaussianPDFReal 0 1
  low : ∀ x, p.low < p.mean x
  neg : p.low < 0

/-- The first element of a list with the largest score. -/
def FirstBest (score : X → ℝ) (l : List X) (x : X) : Prop :=
  ∃ before after, l = before ++ x :: after ∧ (∀ y ∈ before, score y < score x) ∧ ∀ y ∈ after, score y ≤ score x

end Verif.Improvement
