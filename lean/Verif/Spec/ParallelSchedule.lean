import Verif.Model.ParallelSchedule
import Verif.Spec.Schedule

/-!
Vocabulary for programs built with the feature `parallel`: the worlds such a program can get to, and a run of several
of its steps. The interleaving of the workers is arbitrary in every step.
-/

namespace Verif.Schedule

variable {T A S : Type}

/-- Worlds a program with the feature `parallel` can get to with any API calls and completed steps, with any number of threads. -/
inductive ParReachable [LinearOrder T] (m : Model T A S) : World T A S → Prop where
  | start (zero : T) (s : S) : ParReachable m (World.start zero s)
  | call {w : World T A S} (h : ParReachable m w) (c : Cmd T A) : ParReachable m (w.exec c)
  | step {w w' : World T A S} {k : Nat} (h : ParReachable m w) (hs : ParStep m k w (.ok w')) : ParReachable m w'

/-- `ParRun m k n w w'`: `n` completed steps with `k` threads lead from `w` to `w'`. -/
inductive ParRun [LinearOrder T] (m : Model T A S) (k : Nat) : Nat → World T A S → World T A S → Prop where
  | nil (w : World T A S) : ParRun m k 0 w w
  | snoc {n : Nat} {w w' w'' : World T A S} (h : ParRun m k n w w') (hs : ParStep m k w' (.ok w'')) :
      ParRun m k (n + 1) w w''

/-- A program with the feature `parallel`: API calls and completed steps, counted. -/
inductive ParHistory [LinearOrder T] (m : Model T A S) (k : Nat) : Nat → World T A S → Prop where
  | start (zero : T) (s : S) : ParHistory m k 0 (World.start zero s)
  | call {n : Nat} {w : World T A S} (h : ParHistory m k n w) (c : Cmd T A) : ParHistory m k n (w.exec c)
  | step {n : Nat} {w w' : World T A S} (h : ParHistory m k n w) (hs : ParStep m k w (.ok w')) :
      ParHistory m k (n + 1) w'

end Verif.Schedule
