/-!
Model of the genetic searches `explore_ga_sequential!` and `explore_ga_parallel!` (src/explore/genetic.rs).

Simplifications: an individual is a value of a type `I` (a string in the code), a fitness a value of a type `F` (an `f32`). The
functions of the user get the number of the generation (and the index of the individual) as further arguments: they stand for
functions with a hidden state such as a random generator. `fitness` includes the simulations of the repetitions
(`Verif.Driver.runRep`). Times and prints are left out, except for the best individual, which is only printed. In the parallel
macro the simulations run in any order, but `collect_into_vec` restores the order of the indexes; the state column is left out.
-/

namespace Verif.Genetic

/-- The arguments of the macros (src/explore/genetic.rs:385-397, 628-640). -/
structure Callbacks (I F : Type) where
  fitness : Nat → Nat → I → F
  select : Nat → List (I × F) → List (I × F)
  cross : Nat → List I → List I
  mutate : Nat → Nat → I → I
  cmp : F → F → Bool
  desired : F

/-- A row of the dataframe (src/explore/genetic.rs:401-406). -/
structure Row (I F : Type) where
  generation : Nat
  index : Nat
  fitness : F
  individual : I
deriving DecidableEq, Repr

/-- `best_fitness`, `best_individual`, `best_generation` (src/explore/genetic.rs:412-413, 423). -/
structure Best (I F : Type) where
  fitness : F
  individual : I
  generation : Nat
deriving DecidableEq, Repr

variable {I F : Type}

/-- The row of an individual (src/explore/genetic.rs:462, 478-483). -/
def rowOf (cb : Callbacks I F) (g k : Nat) (x : I) : Row I F := ⟨g, k, cb.fitness g k x, x⟩

/-- The loop over the population in the sequential macro, which breaks at the first individual that reaches the desired fitness
(src/explore/genetic.rs:443-494): the rows made and `flag`. -/
def evalSeq (cb : Callbacks I F) (g : Nat) : Nat → List I → List (Row I F) × Bool
  | _, [] => ([], false)
  | k, x :: xs =>
    if cb.cmp (cb.fitness g k x) cb.desired = true then ([rowOf cb g k x], true)
    else (rowOf cb g k x :: (evalSeq cb g (k + 1) xs).1, (evalSeq cb g (k + 1) xs).2)

/-- The loop over the population in the parallel macro, which evaluates all (src/explore/genetic.rs:693-762). -/
def evalPar (cb : Callbacks I F) (g : Nat) : Nat → List I → List (Row I F) × Bool
  | _, [] => ([], false)
  | k, x :: xs =>
    (rowOf cb g k x :: (evalPar cb g (k + 1) xs).1,
      cb.cmp (cb.fitness g k x) cb.desired || (evalPar cb g (k + 1) xs).2)

/-- One update of `best_fitness_gen`, `best_individual_gen` (src/explore/genetic.rs:467-477, 739-750). -/
def bestStep (cmp : F → F → Bool) (b : Option (F × I)) (r : Row I F) : Option (F × I) :=
  match b with
  | some (f, x) => if cmp r.fitness f = true then some (r.fitness, r.individual) else some (f, x)
  | none => some (r.fitness, r.individual)

/-- The best of a generation (src/explore/genetic.rs:433-434, 467-477). -/
def bestGen (cmp : F → F → Bool) (rows : List (Row I F)) : Option (F × I) := rows.foldl (bestStep cmp) none

/-- The update of the overall best (src/explore/genetic.rs:499-511, 766-778); `none` for `best_fitness_gen` is the panic of
`expect`, here or in the line that prints it. -/
def updateBest (cmp : F → F → Bool) (g : Nat) (b : Option (Best I F)) (bg : Option (F × I)) : Option (Best I F) :=
  match bg with
  | none => none
  | some (f, x) =>
    match b with
    | none => some ⟨f, x, g⟩
    | some old => if cmp f old.fitness = true then some ⟨f, x, g⟩ else some old

/-- Mutation of every individual (src/explore/genetic.rs:541-543, 818-820). -/
def mutateAll (cb : Callbacks I F) (g : Nat) : Nat → List I → List I
  | _, [] => []
  | k, x :: xs => cb.mutate g k x :: mutateAll cb g (k + 1) xs

/-- The variables of the loop (src/explore/genetic.rs:401-425). -/
structure State (I F : Type) where
  generation : Nat
  population : List I
  rows : List (Row I F)
  best : Option (Best I F)

/-- The result of a round of the loop (src/explore/genetic.rs:427-545). -/
inductive Round (I F : Type) where
  | halt (s : State I F)
  | next (s : State I F)
  | panic

/-- One round of the loop (src/explore/genetic.rs:427-545, 673-823). `eval` is the loop over the population and `small` the
smallest population that ends the search after the selection. -/
def round (cb : Callbacks I F) (eval : Nat → Nat → List I → List (Row I F) × Bool) (small limit : Nat) (s : State I F) :
    Round I F :=
  if limit ≠ 0 ∧ s.generation = limit then .halt s
  else
    match updateBest cb.cmp (s.generation + 1) s.best (bestGen cb.cmp (eval (s.generation + 1) 0 s.population).1) with
    | none => .panic
    | some b =>
      if (eval (s.generation + 1) 0 s.population).2 = true then
        .halt ⟨s.generation + 1, s.population, s.rows ++ (eval (s.generation + 1) 0 s.population).1, some b⟩
      else if (cb.select (s.generation + 1)
          ((eval (s.generation + 1) 0 s.population).1.map (fun r => (r.individual, r.fitness)))).length ≤ small then
        .halt ⟨s.generation + 1, s.population, s.rows ++ (eval (s.generation + 1) 0 s.population).1, some b⟩
      else
        .next ⟨s.generation + 1,
          mutateAll cb (s.generation + 1) 0 (cb.cross (s.generation + 1) ((cb.select (s.generation + 1)
            ((eval (s.generation + 1) 0 s.population).1.map (fun r => (r.individual, r.fitness)))).map Prod.fst)),
          s.rows ++ (eval (s.generation + 1) 0 s.population).1, some b⟩

/-- What has happened after a number of rounds (src/explore/genetic.rs:426-549). -/
inductive Outcome (I F : Type) where
  | finished (rows : List (Row I F)) (best : Best I F)
  | running (s : State I F)
  | panic

/-- The loop (src/explore/genetic.rs:426-549, 672-827), at most `fuel` rounds; at its end `best_fitness` is printed. -/
def loop (cb : Callbacks I F) (eval : Nat → Nat → List I → List (Row I F) × Bool) (small limit : Nat) :
    Nat → State I F → Outcome I F
  | 0, s => .running s
  | fuel + 1, s =>
    match round cb eval small limit s with
    | .panic => .panic
    | .next s' => loop cb eval small limit fuel s'
    | .halt s' =>
      match s'.best with
      | none => .panic
      | some b => .finished s'.rows b

/-- `explore_ga_sequential!` (src/explore/genetic.rs:384-554): `fuel` bounds the rounds, it is of no effect once it exceeds a limit
that is not 0. -/
def gaSequential (cb : Callbacks I F) (init : List I) (limit fuel : Nat) : Outcome I F :=
  loop cb (evalSeq cb) 1 limit fuel ⟨0, init, [], none⟩

/-- `explore_ga_parallel!` (src/explore/genetic.rs:627-829). -/
def gaParallel (cb : Callbacks I F) (init : List I) (limit fuel : Nat) : Outcome I F :=
  loop cb (evalPar cb) 0 limit fuel ⟨0, init, [], none⟩

end Verif.Genetic
