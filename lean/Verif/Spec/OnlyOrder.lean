import Verif.Model.GeneticMpi
import Verif.Model.GeneticAwsLoop
import Verif.Model.Search

/-!
Specification of C271: searches on values that are changed without changing their order.
-/

namespace Verif.OnlyOrder

open Verif.Genetic

variable {I F F' : Type}

/-- The same search with other fitnesses: each is replaced by its image under `f`, comparisons come out as before, and the selection keeps the same individuals. -/
structure Regraded (f : F → F') (cb : Callbacks I F) (cb' : Callbacks I F') : Prop where
  fitness : ∀ g k x, cb'.fitness g k x = f (cb.fitness g k x)
  cmp : ∀ a b, cb'.cmp (f a) (f b) = cb.cmp a b
  desired : cb'.desired = f cb.desired
  select : ∀ g l, (cb'.select g (l.map (fun p => (p.1, f p.2)))).map Prod.fst = (cb.select g l).map Prod.fst
  cross : ∀ g l, cb'.cross g l = cb.cross g l
  mutate : ∀ g k x, cb'.mutate g k x = cb.mutate g k x

/-- A row of a genetic search with the other fitness. -/
def row (f : F → F') (r : Row I F) : Row I F' := ⟨r.generation, r.index, f r.fitness, r.individual⟩

/-- The best individual with the other fitness. -/
def best (f : F → F') (b : Best I F) : Best I F' := ⟨f b.fitness, b.individual, b.generation⟩

/-- The variables of the loop with the other fitnesses. -/
def state (f : F → F') (s : State I F) : State I F' := ⟨s.generation, s.population, s.rows.map (row f), s.best.map (best f)⟩

/-- The outcome with the other fitnesses. -/
def outcome (f : F → F') : Outcome I F → Outcome I F'
  | .finished rows b => .finished (rows.map (row f)) (best f b)
  | .running s => .running (state f s)
  | .panic => .panic

/-- A row of the distributed search with the other fitness. -/
def rowMpi (f : F → F') (r : GeneticMpi.Row F) : GeneticMpi.Row F' := ⟨r.generation, r.index, f r.fitness⟩

/-- A pair of a fitness and something else with the other fitness. -/
def grade {A : Type} (f : F → F') (b : F × A) : F' × A := (f b.1, b.2)

/-- The variables of the distributed search with the other fitnesses. -/
def stateMpi (f : F → F') (s : GeneticMpi.State I F) : GeneticMpi.State I F' :=
  ⟨s.generation, s.population, s.rows.map (rowMpi f), s.bests.map (Option.map (grade f)), s.best.map (grade f), rowMpi f s.row, s.string.map (grade f)⟩

/-- The outcome of the distributed search with the other fitnesses. -/
def outcomeMpi (f : F → F') : GeneticMpi.Outcome I F → GeneticMpi.Outcome I F'
  | .finished rows b r s => .finished (rows.map (rowMpi f)) (grade f b) (rowMpi f r) (s.map (grade f))
  | .running s => .running (stateMpi f s)
  | .hang => .hang
  | .panic => .panic

/-- A row of the cloud search with the other fitness. -/
def rowAws (f : Rat → Rat) (r : GeneticAws.Row I) : GeneticAws.Row I := ⟨r.generation, r.index, f r.fitness, r.individual⟩

/-- The same cloud search with other fitnesses. -/
structure RegradedAws (f : Rat → Rat) (cb cb' : GeneticAws.Callbacks I) : Prop where
  fit : ∀ g i j x, cb'.fit g i j x = f (cb.fit g i j x)
  desired : cb'.desired = f cb.desired
  select : ∀ g l, (cb'.select g (l.map (fun p => (p.1, f p.2)))).map Prod.fst = (cb.select g l).map Prod.fst
  cross : ∀ g l, cb'.cross g l = cb.cross g l
  mutate : ∀ g k x, cb'.mutate g k x = cb.mutate g k x

/-- The variables of the cloud search with the other fitnesses. -/
def stateAws (f : Rat → Rat) (s : GeneticAws.State I) : GeneticAws.State I := ⟨s.generation, s.population, s.rows.map (rowAws f), grade f s.best⟩

/-- The outcome of the cloud search with the other fitnesses. -/
def outcomeAws (f : Rat → Rat) : GeneticAws.Outcome I → GeneticAws.Outcome I
  | .finished rows b => .finished (rows.map (rowAws f)) (grade f b)
  | .running s => .running (stateAws f s)
  | .panic => .panic

/-- The change of the costs keeps all comparisons. -/
structure KeepsOrder (f : Fl → Fl) : Prop where
  lt : ∀ a b, Fl.lt (f a) (f b) = Fl.lt a b
  le : ∀ a b, Fl.le (f a) (f b) = Fl.le a b

/-- A value with the other cost. -/
def priced {A : Type} (f : Fl → Fl) (b : A × Fl) : A × Fl := (b.1, f b.2)

end Verif.OnlyOrder
