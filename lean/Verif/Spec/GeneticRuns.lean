import Verif.Model.GeneticRuns
import Verif.Spec.Driver
import Verif.Spec.GeneticMpi

/-!
What it means that an individual is judged on fresh runs of its own, and that a search keeps its best individual.
-/

namespace Verif.GeneticRuns

open Verif.Schedule Verif.Driver

variable {T A S I F : Type} [LinearOrder T]

/-- The runs by which `x` is judged: as many as asked for; run `r` starts with the state made of `r` and `x` and an empty schedule, and
goes on until the end condition or the limit. Nothing else enters. -/
def FreshRuns (u : User T A S I F) (x : I) (ws : List (World T A S)) : Prop :=
  ws.length = u.reps ∧ ∀ (r : Nat) (w : World T A S), ws[r]? = some w →
    ∃ k, Takes u.sim u.steps (start u.sim (u.newWith r x)) k ∧ w = (turn u.sim)^[k] (start u.sim (u.newWith r x))

end Verif.GeneticRuns

namespace Verif.Genetic

variable {I F : Type}

/-- Selection, crossover and mutation hand on a best individual of every generation that was judged by `fit`. -/
def KeepsBest (cb : Callbacks I F) (fit : I → F) : Prop :=
  ∀ (g : Nat) (rows : List (Row I F)), rows ≠ [] → (∀ r ∈ rows, r.fitness = fit r.individual) →
    ∃ r ∈ rows, (∀ q ∈ rows, (StrictWeak cb.cmp → cb.cmp q.fitness r.fitness = false) ∧
      (Total cb.cmp → cb.cmp r.fitness q.fitness = true)) ∧ r.individual ∈ offspring cb g rows

end Verif.Genetic
