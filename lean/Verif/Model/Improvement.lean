import Mathlib.Analysis.Real.Sqrt

/-!
Model of the acquisition function of the bayesian search (src/explore/bayesian.rs:260-329) on real numbers.

Simplifications: `f64` is the real numbers, so nothing is rounded, too large or too small; what is not a number in the code — the
root of a negative variance and what is computed from it — is `none`. The predictions of the gaussian process (`gp.predict`,
`gp.predict_variance`) and the standard normal distribution (`normal.cdf`, `normal.pdf`) are parameters, and so is `f64::MIN`.
`Verif.Model.Search` has the same functions on floats with the formula as parameter.
-/

namespace Verif.Improvement

open Classical

variable {X : Type}

/-- The largest predicted mean (src/explore/bayesian.rs:310-321), from `f64::MIN` on. -/
noncomputable def maxFrom (low : ℝ) : List ℝ → ℝ
  | [] => low
  | m :: ms => maxFrom (if m > low then m else low) ms

/-- What the crates compute (src/explore/bayesian.rs:303-304, 312, 316, 324-327). -/
structure Predict (X : Type) where
  mean : X → ℝ
  var : X → ℝ
  cdf : ℝ → ℝ
  pdf : ℝ → ℝ
  low : ℝ

/-- `expected_improvement` (src/explore/bayesian.rs:296-329). -/
noncomputable def expectedImprovement (p : Predict X) (xInit : List X) (x : X) : Option ℝ :=
  if p.var x < 0 then none
  else if √(p.var x) = 0 then some 0
  else some ((p.mean x - maxFrom p.low (xInit.map p.mean)) *
      p.cdf ((p.mean x - maxFrom p.low (xInit.map p.mean)) / √(p.var x)) +
    √(p.var x) * p.pdf ((p.mean x - maxFrom p.low (xInit.map p.mean)) / √(p.var x)))

/-- The loop over the scores (src/explore/bayesian.rs:277-284), from index `i` on: a comparison with what is not a number is false.
-/
noncomputable def bestIndex : List (Option ℝ) → Nat → ℝ × Nat → Nat
  | [], _, m => m.2
  | none :: ss, i, m => bestIndex ss (i + 1) m
  | some s :: ss, i, m => bestIndex ss (i + 1) (if s > m.1 then (s, i) else m)

/-- `acquisition_function` (src/explore/bayesian.rs:268-287); `none` is the panic of the index. -/
noncomputable def acquisition (p : Predict X) (xInit samples : List X) : Option X :=
  samples[bestIndex (samples.map (expectedImprovement p xInit)) 0 (p.low, 0)]?

end Verif.Improvement
