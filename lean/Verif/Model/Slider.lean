import Verif.Model.Single

/-!
Model of the slider for the speed of a visualization (src/visualization/systems/ui_system.rs:54-61). In every frame the time between two steps is
turned into steps per second, shown by the slider, and turned back.

Of the libraries: `Duration` counts nanoseconds; `as_secs_f64` adds the seconds and the rounded quotient of the nanoseconds;
`from_secs_f64` takes the nearest nanosecond (since Rust 1.63); `Slider` with `clamp_to_range` moves a value outside its range to the end of the
range, and otherwise leaves it unless the user moves it; `set_timestep_seconds` panics for durations that are not positive. The range of
exponents of `f64` is left out, the numbers here are in the middle of it.
-/

namespace Verif.Slider

open Verif.Single

/-- Rounding to double precision: 53 significant bits, ties to even (src/visualization/systems/ui_system.rs:55, 61). -/
def double (x : Rat) : Rat :=
  if 0 < x then roundEven (x / (2 : Rat) ^ (Int.log 2 x - 52)) * (2 : Rat) ^ (Int.log 2 x - 52) else 0

/-- `time.timestep().as_secs_f64()` for `t` nanoseconds (src/visualization/systems/ui_system.rs:55). -/
def asSecs (t : Nat) : Rat := double (((t / 10 ^ 9 : Nat) : Rat) + double (((t % 10 ^ 9 : Nat) : Rat) / 10 ^ 9))

/-- `0.1` as `f64` (src/visualization/systems/ui_system.rs:57). -/
def low : Rat := double (1 / 10)

/-- The range of the slider (src/visualization/systems/ui_system.rs:57-59). -/
def clamp (v : Rat) : Rat := if v < low then low else if 250 < v then 250 else v

/-- `value`, the steps per second that the slider shows (src/visualization/systems/ui_system.rs:55-60). -/
def shown (t : Nat) : Rat := clamp (double (1 / asSecs t))

/-- `time.set_timestep_seconds(1. / value)` (src/visualization/systems/ui_system.rs:61): the new number of nanoseconds, or a panic. -/
def set (v : Rat) : Option Nat :=
  if 0 < roundEven (double (1 / v) * 10 ^ 9) then some (roundEven (double (1 / v) * 10 ^ 9)).toNat else none

/-- A frame; `moved` is the place to which the user moves the slider (src/visualization/systems/ui_system.rs:54-61). -/
def frame (moved : Option Rat) (t : Nat) : Option Nat :=
  match moved with
  | none => set (shown t)
  | some v => set (clamp v)

/-- Frames (src/visualization/systems/ui_system.rs:54-61). -/
def frames : List (Option Rat) → Nat → Option Nat
  | [], t => some t
  | m :: ms, t => (frame m t).bind (frames ms)

end Verif.Slider
