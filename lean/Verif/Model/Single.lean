import Mathlib.Data.Int.Log
import Mathlib.Data.Rat.Floor

/-!
Single precision arithmetic, as used for positions in src/engine/fields/field_2d.rs: the finite values are rationals, and the result of an operation
is the exact result rounded to the nearest value, ties to even (IEEE 754).

Simplifications: infinities and NaN are not modelled, so there is no overflow; -0 is 0.
-/

namespace Verif.Single

/-- The finite `f32` values, without a bound above: 24 significant bits, last bit at least 2^-149
(the type `f32` of src/engine/location.rs:17-20). -/
def IsF32 (x : Rat) : Prop := ∃ m e : Int, |m| ≤ 2 ^ 24 ∧ -149 ≤ e ∧ x = m * (2 : Rat) ^ e

/-- The nearest integer, ties to even (rounding of the operations in src/engine/fields/field_2d.rs:328-354, 934-1016). -/
def roundEven (x : Rat) : Int :=
  if 2 * (x - x.floor) < 1 then x.floor
  else if 1 < 2 * (x - x.floor) then x.floor + 1
  else if x.floor % 2 = 0 then x.floor else x.floor + 1

/-- The exponent of the last significant bit of a positive number (rounding of the operations in
src/engine/fields/field_2d.rs:328-354, 934-1016). -/
def lastBit (x : Rat) : Int := max (Int.log 2 x - 23) (-149)

/-- Rounding to single precision (the operations in src/engine/fields/field_2d.rs:328-354, 934-1016). -/
def single (x : Rat) : Rat :=
  if 0 < x then roundEven (x / (2 : Rat) ^ lastBit x) * (2 : Rat) ^ lastBit x
  else if x < 0 then -(roundEven (-x / (2 : Rat) ^ lastBit (-x)) * (2 : Rat) ^ lastBit (-x))
  else 0

/-- The integer nearest to the square root, ties to even (`sqrt` in src/engine/fields/field_2d.rs:985). -/
def roundRoot (q : Rat) : Nat :=
  if 4 * q < 4 * (Nat.sqrt q.floor.toNat * Nat.sqrt q.floor.toNat + Nat.sqrt q.floor.toNat) + 1 then Nat.sqrt q.floor.toNat
  else if 4 * (Nat.sqrt q.floor.toNat * Nat.sqrt q.floor.toNat + Nat.sqrt q.floor.toNat) + 1 < 4 * q then Nat.sqrt q.floor.toNat + 1
  else if Nat.sqrt q.floor.toNat % 2 = 0 then Nat.sqrt q.floor.toNat else Nat.sqrt q.floor.toNat + 1

/-- The exponent of the last significant bit of the square root of a positive number (`sqrt` in src/engine/fields/field_2d.rs:985). -/
def rootBit (s : Rat) : Int := max (Int.log 2 s / 2 - 23) (-149)

/-- `sqrt` in single precision, correctly rounded (src/engine/fields/field_2d.rs:985). -/
def root (s : Rat) : Rat := if s ≤ 0 then 0 else roundRoot (s / ((2 : Rat) ^ rootBit s * (2 : Rat) ^ rootBit s)) * (2 : Rat) ^ rootBit s

end Verif.Single
