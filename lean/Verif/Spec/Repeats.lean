import Verif.Model.Driver

/-!
Specification of independent repetitions: what `simulate!` would do if it called `State::reset` between them.
-/

namespace Verif.Driver

open Schedule

variable {T A S : Type} [LinearOrder T]

/-- Repetitions of at most `n` steps; every one after the first begins with a state that was reset. -/
def resetReps (d : Sim T A S) (reset : S → S) (n : Nat) : Nat → S → List (World T A S)
  | 0, _ => []
  | r + 1, s => runRep d n s :: resetReps d reset n r (reset (runRep d n s).state)

end Verif.Driver
