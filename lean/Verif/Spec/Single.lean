import Verif.Model.Single

/-!
What is used of the rounding of single precision arithmetic.
-/

namespace Verif.Single

/-- A rounding to the nearest single: monotone, symmetric, gives singles and no single is nearer, so that the relative error is at most 2^-24 or the
absolute error at most 2^-150. -/
structure Rounding (rnd : Rat → Rat) : Prop where
  mono : ∀ x y, x ≤ y → rnd x ≤ rnd y
  odd : ∀ x, rnd (-x) = -rnd x
  lands : ∀ x, IsF32 (rnd x)
  nearest : ∀ x y, IsF32 y → |rnd x - x| ≤ |y - x|
  near : ∀ x, |rnd x - x| ≤ |x| / 2 ^ 24 + 1 / 2 ^ 150

/-- A rounded square root: no single lies strictly between it and the exact root. -/
structure Root (root : Rat → Rat) : Prop where
  below : ∀ s y, 0 ≤ s → IsF32 y → 0 ≤ y → y * y ≤ s → y ≤ root s
  above : ∀ s y, 0 ≤ s → IsF32 y → 0 ≤ y → s ≤ y * y → root s ≤ y

/-- IEEE 754 rounding to nearest, ties to even: if another single is just as near, the result is an even multiple of the gap between the two. -/
structure Ieee (rnd root : Rat → Rat) : Prop where
  rounding : Rounding rnd
  even : ∀ x y, IsF32 y → y ≠ rnd x → |y - x| = |rnd x - x| → ∃ m : Int, rnd x = 2 * m * (y - rnd x)
  rootBetween : Root root
  rootLands : ∀ s, IsF32 (root s)
  /-- The square root lies on the same side of the middle between its rounding and any other single. -/
  rootNearest : ∀ s y, 0 ≤ s → IsF32 y → 0 ≤ y → (y < root s → (y + root s) / 2 * ((y + root s) / 2) ≤ s) ∧ (root s < y → s ≤ (y + root s) / 2 * ((y + root s) / 2))

end Verif.Single
