import Verif.Model.Terminal

/-!
Model of the two gauges on the first tab of the terminal interface (src/utils/monitoring/ui.rs:433-474): the number of the
repetition and the progress in it.

Simplifications: layout and colours are left out, and so is the time; the progress is the exact quotient, of which the code takes the
nearest `f64` (its 53 bits do not matter for the comparison with 0 and 1, which are `f64`s).
-/

namespace Verif.Terminal

/-- The fields `rep`, `step` and `progress` of `UI` (src/utils/monitoring/ui.rs:78-95). -/
structure Gauges where
  rep : Nat
  step : Nat
  progress : Rat
deriving DecidableEq, Repr

/-- `UI::new` (src/utils/monitoring/ui.rs:97-118). -/
def Gauges.new : Gauges := ⟨0, 0, 0⟩

/-- `on_tick` and `on_rep` (src/utils/monitoring/ui.rs:184-188, 217-222) with the progress that the simulation thread sends,
`(i + 1) as f64 / n_step as f64` (src/lib.rs:1049-1056). `terminal.clear` changes nothing in `UI`. -/
def Gauges.show (nStep : Nat) (g : Gauges) : Shown → Gauges
  | .tick i => { g with step := i, progress := ((i + 1 : Nat) : Rat) / (nStep : Rat) }
  | .rep r => { g with rep := r }
  | .cleared => g

/-- The gauges after what was shown (src/lib.rs:879-935). -/
def gauges (nStep : Nat) (shown : List Shown) : Gauges := shown.foldl (Gauges.show nStep) Gauges.new

/-- The number in `Repetitions {}/{}:` (src/utils/monitoring/ui.rs:448). -/
def Gauges.repetition (g : Gauges) : Nat := g.rep + 1

/-- The number in `{}/{} - {:.2}%` (src/utils/monitoring/ui.rs:464). -/
def Gauges.stepNumber (g : Gauges) : Nat := g.step + 1

end Verif.Terminal
