import Verif.Model.Driver
import Verif.Model.GeneticMpi
import Verif.Model.GeneticAwsLoop

/-!
Model of how the genetic searches judge an individual: the runs of the simulation whose results the fitness function of the user gets
(src/explore/genetic.rs, src/explore/mpi/genetic.rs, src/explore/aws/genetic.rs).

Simplifications: those of `Verif.Model.Driver` for a run and of `Verif.Model.Genetic`, `Verif.Model.GeneticMpi` and
`Verif.Model.GeneticAws` for the searches. The functions of the user are functions of their arguments here: no random generator
outside of the state. `$fitness` may change the states and schedules it gets, but nobody looks at them afterwards. `as_state_mut` is
the state itself.
-/

namespace Verif.GeneticRuns

open Verif.Schedule Verif.Driver

/-- What the user supplies to judge an individual (src/explore/genetic.rs:384-397): `$state` with its `new_with_parameters`, `$step`,
`reps` (1 if it is not given, lines 408-409) and `$fitness`. -/
structure User (T A S I F : Type) where
  sim : Sim T A S
  newWith : Nat → I → S
  steps : Nat
  reps : Nat
  fitness : List (World T A S) → F

variable {T A S I F : Type} [LinearOrder T]

/-- The loop `for r in 0..reps` (src/explore/genetic.rs:447-461, 700-721; src/explore/mpi/genetic.rs:325-339): `k` runs left, the next
is number `r`. Returns `computed_ind`. -/
def computed (u : User T A S I F) (x : I) : Nat → Nat → List (World T A S)
  | _, 0 => []
  | r, k + 1 => runRep u.sim u.steps (u.newWith r x) :: computed u x (r + 1) k

/-- The fitness of an individual (src/explore/genetic.rs:445-464, 694-724; src/explore/mpi/genetic.rs:323-342). -/
def judge (u : User T A S I F) (x : I) : F := u.fitness (computed u x 0 u.reps)

/-- `save_state`, the last column of the parallel search (src/explore/genetic.rs:698, 719): `format!` of the state after each run, the
last one stays. `display` is the `Display` of the state. -/
def savedState (u : User T A S I F) (display : S → String) (x : I) : String :=
  (computed u x 0 u.reps).foldl (fun _ w => display w.state) ""

/-- The arguments of the macros on one computer and on several (src/explore/genetic.rs:384-397, 627-640;
src/explore/mpi/genetic.rs:120-133). -/
def callbacks (u : User T A S I F) (select : Nat → List (I × F) → List (I × F)) (cross : Nat → List I → List I)
    (mutate : Nat → Nat → I → I) (cmp : F → F → Bool) (desired : F) : Genetic.Callbacks I F where
  fitness _ _ x := judge u x
  select := select
  cross := cross
  mutate := mutate
  cmp := cmp
  desired := desired

/-- The fitness that a cloud function computes (src/explore/aws/genetic.rs:178-207): the loop over `reps` is commented out, and
`new_with_parameters` is called without the number of the run. -/
def judgeCloud (u : User T A S I F) (new : I → S) (x : I) : F := u.fitness [runRep u.sim u.steps (new x)]

/-- The arguments of the cloud macro (src/explore/aws/genetic.rs:16-27). -/
def cloudCallbacks (u : User T A S I Rat) (new : I → S) (select : Nat → List (I × Rat) → List (I × Rat))
    (cross : Nat → List I → List I) (mutate : Nat → Nat → I → I) (desired : Rat) : GeneticAws.Callbacks I where
  fit _ _ _ x := judgeCloud u new x
  select := select
  mutate := mutate
  cross := cross
  desired := desired

end Verif.GeneticRuns
