import Verif.Model.Genetic

/-!
Model of the distributed genetic search `explore_ga_distributed_mpi!` (src/explore/mpi/genetic.rs), all processes together.

Simplifications: as in `Verif.Model.Genetic`; the hidden state of the fitness function is indexed by the index of the individual in
the whole population. Each process does what the code does between two communications, and all communications of a generation
take place (they have fixed partners). The messages that the root sends to itself (src/explore/mpi/genetic.rs:268-278) are never
received; they are taken to be buffered. `dummy` is the constant `1000.`. A panic of one process is a panic of the search; `hang`
means that the root has left the loop and the others wait for a message.
-/

namespace Verif.GeneticMpi

open Verif.Genetic

/-- A row of the dataframe (src/explore/mpi/genetic.rs:157-163); it has no column for the individual. -/
structure Row (F : Type) where
  generation : Nat
  index : Nat
  fitness : F
deriving DecidableEq, Repr

variable {I F : Type}

/-- The workload subdivision (src/explore/mpi/genetic.rs:234-252): sizes for the processes left. -/
def sizes (per : Nat) : Nat → Nat → List Nat
  | _, 0 => []
  | rem, k + 1 => if rem > 0 then (per + 1) :: sizes per (rem - 1) k else per :: sizes per rem k

/-- The individuals of each process (src/explore/mpi/genetic.rs:260-302), taken one after the other from the population; `none`
is an index out of range. -/
def deal : List Nat → List I → Option (List (List I))
  | [], _ => some []
  | k :: ks, pop => if k ≤ pop.length then (deal ks (pop.drop k)).map (fun bs => pop.take k :: bs) else none

/-- `displs` (src/explore/mpi/genetic.rs:424-431). -/
def displs : Nat → List Nat → List Nat
  | _, [] => []
  | acc, x :: xs => acc :: displs (acc + x) xs

/-- One update of `my_best_fitness`, `my_best_individual` (src/explore/mpi/genetic.rs:346-358). -/
def myBest (cmp : F → F → Bool) (b : Option (F × I)) (f : F) (x : I) : Option (F × I) :=
  match b with
  | some (f0, x0) => if cmp f f0 = true then some (f, x) else some (f0, x0)
  | none => some (f, x)

/-- The loop of a process over its individuals (src/explore/mpi/genetic.rs:310-379), whose first is number `start` of the
population: its rows, its best and its flag. -/
def work (cb : Callbacks I F) (g start : Nat) : Nat → Option (F × I) → List I → List (Row F) × Option (F × I) × Bool
  | _, b, [] => ([], b, false)
  | k, b, x :: xs =>
    (⟨g, k, cb.fitness g (start + k) x⟩ ::
        (work cb g start (k + 1) (myBest cb.cmp b (cb.fitness g (start + k) x) x) xs).1,
      (work cb g start (k + 1) (myBest cb.cmp b (cb.fitness g (start + k) x) x) xs).2.1,
      cb.cmp (cb.fitness g (start + k) x) cb.desired ||
        (work cb g start (k + 1) (myBest cb.cmp b (cb.fitness g (start + k) x) x) xs).2.2)

/-- The work of all processes, in rank order; the offsets are the displacements (src/explore/mpi/genetic.rs:310-379, 424-431). -/
def workAll (cb : Callbacks I F) (g : Nat) : List Nat → List (Option (F × I)) → List (List I) →
    List (List (Row F) × Option (F × I) × Bool)
  | d :: ds, b :: bs, xs :: xss => work cb g d 0 b xs :: workAll cb g ds bs xss
  | _, _, _ => []

/-- `my_best_fitness.expect` of all processes (src/explore/mpi/genetic.rs:387, 412). -/
def allBests : List (Option (F × I)) → Option (List (F × I))
  | [] => some []
  | none :: _ => none
  | some b :: bs => (allBests bs).map (fun l => b :: l)

/-- `max_fitness_index` and `best_individual_string` (src/explore/mpi/genetic.rs:399-407): the best of the processes. -/
def bestOfAll (cmp : F → F → Bool) : List (F × I) → Option (F × I)
  | [] => none
  | b :: bs => some (bs.foldl (fun m c => if cmp c.1 m.1 = true then c else m) b)

/-- `elem.index += displs[i]` for the gathered rows, where `i` is the process and `j` the number of its rows seen
(src/explore/mpi/genetic.rs:439-473). -/
def reindex (counts ds : List Nat) : Nat → Nat → List (Row F) → Option (List (Row F))
  | _, _, [] => some []
  | i, j, r :: rs =>
    match ds[i]?, counts[i]? with
    | some d, some c =>
      (if j + 1 = c then reindex counts ds (i + 1) 0 rs else reindex counts ds i (j + 1) rs).map
        (fun l => ⟨r.generation, r.index + d, r.fitness⟩ :: l)
    | _, _ => none

/-- `best_fitness_gen` (src/explore/mpi/genetic.rs:447-456). -/
def bestFitness (cmp : F → F → Bool) (b : Option F) (r : Row F) : Option F :=
  match b with
  | some f => if cmp r.fitness f = true then some r.fitness else some f
  | none => some r.fitness

/-- `best_individual` (src/explore/mpi/genetic.rs:458-468); it starts with the dummy of lines 203-207. -/
def bestRow (cmp : F → F → Bool) (b r : Row F) : Row F := if cmp r.fitness b.fitness = true then r else b

/-- `best_fitness` and `best_generation` at the root (src/explore/mpi/genetic.rs:496-517). -/
def updateBest (cmp : F → F → Bool) (g : Nat) (b : Option (F × Nat)) (bg : Option F) : Option (F × Nat) :=
  match bg with
  | none => none
  | some f =>
    match b with
    | none => some (f, g)
    | some old => if cmp f old.1 = true then some (f, g) else some old

/-- `pop_fitness` (src/explore/mpi/genetic.rs:554-560): individual `i` with the fitness of row
`(generation - 1) * population_size + i` of all results. -/
def pairs (results : List (Row F)) (g n : Nat) : Nat → List I → Option (List (I × F))
  | _, [] => some []
  | i, x :: xs =>
    match results[(g - 1) * n + i]? with
    | none => none
    | some r => (pairs results g n (i + 1) xs).map (fun l => (x, r.fitness) :: l)

/-- The variables of the loop: those of the root and the best of each process (src/explore/mpi/genetic.rs:157-208). -/
structure State (I F : Type) where
  generation : Nat
  population : List I
  rows : List (Row F)
  bests : List (Option (F × I))
  best : Option (F × Nat)
  row : Row F
  string : Option (F × I)

/-- The result of a round (src/explore/mpi/genetic.rs:209-591). -/
inductive Round (I F : Type) where
  | halt (s : State I F)
  | hang
  | next (s : State I F)
  | panic

/-- What the processes do in one generation up to the gathering of the results: the blocks are dealt, the rows, bests and flags
computed, the rows gathered and numbered (src/explore/mpi/genetic.rs:225-493). -/
def generation (cb : Callbacks I F) (procs : Nat) (s : State I F) : Option (List (Row F) × List (F × I) × Bool) :=
  match deal (sizes (s.population.length / procs) (s.population.length % procs) procs) s.population with
  | none => none
  | some blocks =>
    match allBests ((workAll cb (s.generation + 1) (displs 0 (blocks.map List.length)) s.bests blocks).map (fun w => w.2.1)) with
    | none => none
    | some bests =>
      match reindex (blocks.map List.length) (displs 0 (blocks.map List.length)) 0 0
          ((workAll cb (s.generation + 1) (displs 0 (blocks.map List.length)) s.bests blocks).flatMap (fun w => w.1)) with
      | none => none
      | some rows =>
        some (rows, bests,
          (workAll cb (s.generation + 1) (displs 0 (blocks.map List.length)) s.bests blocks).any (fun w => w.2.2))

variable [DecidableEq F]

/-- One round of the loop (src/explore/mpi/genetic.rs:209-591). -/
def round (cb : Callbacks I F) (dummy : F) (limit procs : Nat) (s : State I F) : Round I F :=
  if limit ≠ 0 ∧ s.generation = limit then .halt s
  else
    match generation cb procs s with
    | none => .panic
    | some (rows, bests, flag) =>
      if rows.any (fun r => r.fitness = dummy) then .panic
      else
        match updateBest cb.cmp (s.generation + 1) s.best (rows.foldl (bestFitness cb.cmp) none) with
        | none => .panic
        | some best =>
          if flag = true then
            .halt ⟨s.generation + 1, s.population, s.rows ++ rows, bests.map some, some best,
              rows.foldl (bestRow cb.cmp) s.row, bestOfAll cb.cmp bests⟩
          else
            match pairs (s.rows ++ rows) (s.generation + 1) s.population.length 0 s.population with
            | none => .panic
            | some pf =>
              if (cb.select (s.generation + 1) pf).length ≤ 1 then
                if procs ≤ 1 then
                  .halt ⟨s.generation + 1, s.population, s.rows ++ rows, bests.map some, some best,
                    rows.foldl (bestRow cb.cmp) s.row, bestOfAll cb.cmp bests⟩
                else .hang
              else
                .next ⟨s.generation + 1,
                  mutateAll cb (s.generation + 1) 0 (cb.cross (s.generation + 1) ((cb.select (s.generation + 1) pf).map Prod.fst)),
                  s.rows ++ rows, bests.map some, some best, rows.foldl (bestRow cb.cmp) s.row, bestOfAll cb.cmp bests⟩

/-- What has happened after a number of rounds (src/explore/mpi/genetic.rs:209-591). -/
inductive Outcome (I F : Type) where
  | finished (rows : List (Row F)) (best : F × Nat) (row : Row F) (string : Option (F × I))
  | running (s : State I F)
  | hang
  | panic

/-- The loop (src/explore/mpi/genetic.rs:209-591), at most `fuel` rounds. -/
def loop (cb : Callbacks I F) (dummy : F) (limit procs : Nat) : Nat → State I F → Outcome I F
  | 0, s => .running s
  | fuel + 1, s =>
    match round cb dummy limit procs s with
    | .panic => .panic
    | .hang => .hang
    | .next s' => loop cb dummy limit procs fuel s'
    | .halt s' =>
      match s'.best with
      | none => .panic
      | some b => .finished s'.rows b s'.row s'.string

/-- `explore_ga_distributed_mpi!` (src/explore/mpi/genetic.rs:120-608) on `procs` processes: the result at the root, and what it
prints at the end. -/
def gaMpi (cb : Callbacks I F) (dummy : F) (init : List I) (limit procs fuel : Nat) : Outcome I F :=
  loop cb dummy limit procs fuel ⟨0, init, [], List.replicate procs none, none, ⟨0, 0, dummy⟩, none⟩

end Verif.GeneticMpi
