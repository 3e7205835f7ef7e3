import Mathlib.Algebra.Order.Ring.Rat

/-!
Floating point numbers up to the values of the finite ones, as far as comparisons of them need it (`f32`, `f64` of Rust).
-/

namespace Verif

/-- A float: not a number, an infinity, or a finite number (the floats of src/explore/genetic.rs:412-511,
src/explore/random_search.rs:97-103, src/explore/bayesian.rs:126-133). -/
inductive Fl where
  | nan
  | ninf
  | fin (q : Rat)
  | pinf
deriving DecidableEq, Repr

namespace Fl

/-- `<` (IEEE 754: comparisons with NaN are false) (the floats of src/explore/genetic.rs:412-511,
src/explore/random_search.rs:97-103, src/explore/bayesian.rs:126-133). -/
def lt : Fl → Fl → Bool
  | .nan, _ => false
  | _, .nan => false
  | .ninf, .ninf => false
  | .ninf, _ => true
  | .fin _, .ninf => false
  | .fin a, .fin b => decide (a < b)
  | .fin _, .pinf => true
  | .pinf, _ => false

/-- `<=` (the floats of src/explore/genetic.rs:412-511, src/explore/random_search.rs:97-103, src/explore/bayesian.rs:126-133). -/
def le : Fl → Fl → Bool
  | .nan, _ => false
  | _, .nan => false
  | .ninf, _ => true
  | .fin _, .ninf => false
  | .fin a, .fin b => decide (a ≤ b)
  | .fin _, .pinf => true
  | .pinf, .pinf => true
  | .pinf, _ => false

/-- `f32::MAX` (the floats of src/explore/genetic.rs:412-511, src/explore/random_search.rs:97-103, src/explore/bayesian.rs:126-133). -/
def maxF32 : Fl := .fin ((2 ^ 24 - 1) * 2 ^ 104)

/-- `f64::MIN` (the floats of src/explore/genetic.rs:412-511, src/explore/random_search.rs:97-103, src/explore/bayesian.rs:126-133). -/
def minF64 : Fl := .fin (-((2 ^ 53 - 1) * 2 ^ 971))

end Fl

end Verif
