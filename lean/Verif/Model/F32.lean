/-!
Model of the single-precision addition `item.priority.time + 1.0`, src/engine/schedule.rs:404 (and 203).

Non-negative finite `f32` values are integer multiples of the smallest subnormal `2^-149`; the model
represents such a value by that integer. IEEE 754 addition is the exact sum rounded to 24 significant
bits, ties to even. Not modelled: negative values, infinities (overflow happens only at `2^128`, far from
where adding `1.0` has any effect) and NaN.
-/

namespace Verif.F32

/-- `1.0` in units of `2^-149` (src/engine/schedule.rs:404, 203). -/
def one : Nat := 2 ^ 149

/-- Weight of the last significant bit when `n` (in units) is written with 24 significant bits: `2^(ulpExp n)`
(src/engine/schedule.rs:404, 203). -/
def ulpExp (n : Nat) : Nat := n.log2 - 23

/-- A number of units is a single-precision value iff it needs at most 24 significant bits (src/engine/schedule.rs:404, 203). -/
def Representable (n : Nat) : Prop := 2 ^ ulpExp n ∣ n

instance (n : Nat) : Decidable (Representable n) := inferInstanceAs (Decidable (_ ∣ _))

/-- Round to nearest, ties to even (src/engine/schedule.rs:404, 203). -/
def round (n : Nat) : Nat :=
  let u := 2 ^ ulpExp n
  let q := n / u
  let r := n % u
  if 2 * r < u then q * u
  else if u < 2 * r then (q + 1) * u
  else (q + q % 2) * u

/-- `t + 1.0` (src/engine/schedule.rs:404, 203). -/
def advance (t : Nat) : Nat := round (t + one)

end Verif.F32
