import Verif.Model.GeneticMpi
import Verif.Spec.Genetic

/-!
What the distributed search should do: the same as the search on one computer.
-/

namespace Verif.GeneticMpi

variable {I F : Type}

/-- The row without the individual. -/
def forget (r : Genetic.Row I F) : Row F := ⟨r.generation, r.index, r.fitness⟩

/-- The fitness `f` and individual `x` are those of one of the rows, which no row beats. -/
def IsBest (cmp : F → F → Bool) (rows : List (Genetic.Row I F)) (f : F) (x : I) : Prop :=
  (∃ r ∈ rows, r.fitness = f ∧ r.individual = x) ∧
  (Genetic.StrictWeak cmp → ∀ r ∈ rows, cmp r.fitness f = false) ∧
  (Genetic.Total cmp → ∀ r ∈ rows, cmp f r.fitness = true)

end Verif.GeneticMpi
