/-!
Model of a generation of the cloud genetic search `explore_ga_aws!` (src/explore/aws/genetic.rs).

Simplifications: an individual is a value of a type `I`; a fitness is an exact rational (an `f32` in the code, sent as a decimal
number); `fit i j x` is the fitness that function `i` computes for its `j`-th individual `x` (it stands for the simulation and the
function of the user with their hidden state). The deployment of the functions is left out. The queue delivers the message of each
function once, one per request, in any order. `none` is a panic.
-/

namespace Verif.GeneticAws

variable {I : Type}

/-- The positions in the (repeated) population that function `i` gets, if it gets `size` of them
(src/explore/aws/genetic.rs:394-413): `rem` is `total_functions % $num_func`, `per` is `population_size_per_function`, `remained`
is `remained_funcs`. The remainder modulo the size of the population is taken in `individuals`. -/
def positions (rem per i remained size : Nat) : List Nat :=
  (List.range size).map (fun j =>
    if rem = 0 then i * size + j
    else if i < rem then i * size + j
    else rem * (per + 1) + remained * per + j)

/-- The loop over the functions (src/explore/aws/genetic.rs:379-451): `k` functions left, the next is `i`; `remainder` counts the
functions that still get one more, `remained` the functions without one that had something to do. -/
def shares (rem per : Nat) : Nat → Nat → Nat → Nat → List (List Nat)
  | 0, _, _, _ => []
  | k + 1, i, remainder, remained =>
    if remainder > 0 then
      positions rem per i remained (per + 1) ::
        shares rem per k (i + 1) (remainder - 1) (if rem ≠ 0 ∧ ¬ i < rem then remained + 1 else remained)
    else
      positions rem per i remained per ::
        shares rem per k (i + 1) remainder (if rem ≠ 0 ∧ ¬ i < rem ∧ 0 < per then remained + 1 else remained)

/-- `population[k % population.len()]` for a list of positions (src/explore/aws/genetic.rs:398-409). -/
def individuals (pop : List I) : List Nat → Option (List I)
  | [] => some []
  | k :: ks =>
    match pop[k % pop.length]?, individuals pop ks with
    | some x, some xs => some (x :: xs)
    | _, _ => none

/-- The individuals of all functions (src/explore/aws/genetic.rs:379-413). -/
def allIndividuals (pop : List I) : List (List Nat) → Option (List (List I))
  | [] => some []
  | ks :: kss =>
    match individuals pop ks, allIndividuals pop kss with
    | some xs, some xss => some (xs :: xss)
    | _, _ => none

/-- The work lists of a generation (src/explore/aws/genetic.rs:369-451); the division by no function panics. -/
def workload (pop : List I) (reps numFunc : Nat) : Option (List (List I)) :=
  if numFunc = 0 then none
  else allIndividuals pop (shares (pop.length * reps % numFunc) (pop.length * reps / numFunc) numFunc 0
    (pop.length * reps % numFunc) 0)

/-- A row of the dataframe (src/explore/aws/genetic.rs:328-333). -/
structure Row (I : Type) where
  generation : Nat
  index : Nat
  fitness : Rat
  individual : I
deriving DecidableEq, Repr

/-- The answers of a function to its list (src/explore/aws/genetic.rs:178-213), numbered from `j` on. -/
def answer (fit : Nat → I → Rat) (g : Nat) : Nat → List I → List (Row I)
  | _, [] => []
  | j, x :: xs => ⟨g, j, fit j x, x⟩ :: answer fit g (j + 1) xs

/-- The messages of all functions from number `i` on (src/explore/aws/genetic.rs:167-221). A function without an individual cuts
the opening bracket off (line 215), its message is no JSON: `none`. -/
def messages (fit : Nat → Nat → I → Rat) (g : Nat) : Nat → List (List I) → List (Option (List (Row I)))
  | _, [] => []
  | i, xs :: xss => (if xs.isEmpty then none else some (answer (fit i) g 0 xs)) :: messages fit g (i + 1) xss

/-- Parsing the messages (src/explore/aws/genetic.rs:490-521). -/
def parse : List (Option (List (Row I))) → Option (List (Row I))
  | [] => some []
  | none :: _ => none
  | some rows :: ms => (parse ms).map (fun l => rows ++ l)

/-- One update of `best_fitness_gen`, `best_individual_gen` (src/explore/aws/genetic.rs:506-509); they start as `0.` and the empty
string, here `none`. -/
def bestStep (b : Rat × Option I) (r : Row I) : Rat × Option I :=
  if r.fitness > b.1 then (r.fitness, some r.individual) else b

/-- The best of a generation (src/explore/aws/genetic.rs:374-375, 506-509). -/
def bestGen (rows : List (Row I)) : Rat × Option I := rows.foldl bestStep (0, none)

/-- The overall best (src/explore/aws/genetic.rs:337, 524-528). -/
def updateBest (b bg : Rat × Option I) : Rat × Option I := if bg.1 > b.1 then bg else b

/-- A generation up to the selection (src/explore/aws/genetic.rs:353-535): its rows (from which `pop_fitness` is made), the
overall best
and whether the desired fitness was reached. `arrive` is the order of arrival of the messages. -/
def generation (fit : Nat → Nat → I → Rat) (arrive : List (Option (List (Row I))) → List (Option (List (Row I))))
    (desired : Rat) (pop : List I) (reps numFunc g : Nat) (best : Rat × Option I) :
    Option (List (Row I) × (Rat × Option I) × Bool) :=
  match workload pop reps numFunc with
  | none => none
  | some lists =>
    (parse (arrive (messages fit g 0 lists))).map (fun rows =>
      (rows, updateBest best (bestGen rows), rows.any (fun r => decide (r.fitness ≥ desired))))

end Verif.GeneticAws
