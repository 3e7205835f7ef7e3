import Verif.Model.Driver
import Mathlib.Logic.Function.Iterate
import Mathlib.Data.List.Forall2

/-!
Vocabulary for the properties of the simulation loops: what one turn of a loop does, and when a repetition is over.
-/

namespace Verif.Driver

open Schedule

variable {T A S : Type} [LinearOrder T]

/-- A step of the schedule, and what `end_condition` does after it. -/
def turn (d : Sim T A S) (w : World T A S) : World T A S :=
  World.execAll { step d.model w with state := (d.endCondition (step d.model w)).2.1 } (d.endCondition (step d.model w)).2.2

/-- `end_condition` answers yes after the next step. -/
def Ends (d : Sim T A S) (w : World T A S) : Prop := (d.endCondition (step d.model w)).1 = true

instance (d : Sim T A S) (w : World T A S) : Decidable (Ends d w) := by unfold Ends; infer_instance

/-- A repetition limited to `n` steps that begins in `w` takes `k` steps: either `k` is the first step after which
`end_condition` holds, or it never holds and `k` is the limit. -/
def Takes (d : Sim T A S) (n : Nat) (w : World T A S) (k : Nat) : Prop :=
  (∃ j, k = j + 1 ∧ j < n ∧ Ends d ((turn d)^[j] w) ∧ ∀ i, i < j → ¬ Ends d ((turn d)^[i] w)) ∨
  (k = n ∧ ∀ i, i < n → ¬ Ends d ((turn d)^[i] w))

/-- `end_condition` never holds in a repetition of `n` steps. -/
def NeverEnds (d : Sim T A S) (n : Nat) (w : World T A S) : Prop := ∀ i, i < n → ¬ Ends d ((turn d)^[i] w)

/-- The states at the beginning of the repetitions, when each begins with what the previous one left. -/
def Chain (d : Sim T A S) (n : Nat) : S → List (World T A S) → Prop
  | _, [] => True
  | s, w :: ws => (∃ k, Takes d n (start d s) k ∧ w = (turn d)^[k] (start d s)) ∧ Chain d n w.state ws

/-- Two recorded executions agree: as many records, and at each record as many agents, pairwise of the same type and
equal. -/
def Agree {A : Type} (kind : A → Nat) (equals : A → A → Bool) (e1 e2 : List (List A)) : Prop :=
  List.Forall₂ (List.Forall₂ (fun a b => kind a = kind b ∧ equals a b = true)) e1 e2

end Verif.Driver
