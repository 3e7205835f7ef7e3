/-!
Model of the parameter exploration: `build_configurations!` (src/lib.rs), `explore_sequential!`, `explore_parallel!`
(src/explore/model_exploration.rs) and `explore_distributed_mpi!` (src/explore/mpi/model_exploration.rs).

Simplifications: the parameter lists, which have different types in the code, are lists of one type `V`; `new` is the
constructor of the state and `sim` what `simulate_explore!` does to it (`Verif.Driver.runRep`); casts to `u32`, printing and the
measured times are left out. A row holds the state after the run, from which the code reads all input and output columns.
`none` is a panic.
-/

namespace Verif.Explore

/-- `ExploreMode` (src/lib.rs:479-484). -/
inductive Mode where
  | exaustive
  | matched
deriving DecidableEq, Repr

/-- A row of the dataframe (src/explore/model_exploration.rs:463-471). -/
structure Row (S : Type) where
  confNum : Nat
  confRep : Nat
  state : S
deriving DecidableEq, Repr

/-- The loop that fills a row of the table (src/lib.rs:1730-1736): `n` rounds left, next index `i`. -/
def fillRow (rep size : Nat) : Nat → Nat → List Nat
  | 0, _ => []
  | n + 1, i => List.replicate rep i ++ fillRow rep size n ((i + 1) % size)

/-- `build_configurations!` (src/lib.rs:1719-1744) from the current value of `rep` on; the division by an empty input
panics. -/
def buildRows (nConf : Nat) : Nat → List Nat → Option (List (List Nat))
  | _, [] => some []
  | rep, size :: sizes =>
    if size = 0 then none
    else (buildRows nConf (rep / size) sizes).map (fun t => fillRow (rep / size) size nConf 0 :: t)

/-- `build_configurations!` (src/lib.rs:1719-1744), for inputs of these lengths. -/
def buildConfigurations (nConf : Nat) (sizes : List Nat) : Option (List (List Nat)) := buildRows nConf nConf sizes

/-- `n_conf` (src/explore/model_exploration.rs:248-262, 368-383): the product of the lengths, or the length of the last input.
(With no input it is 1.) -/
def nConf (mode : Mode) (sizes : List Nat) : Nat :=
  match mode with
  | .exaustive => sizes.foldl (fun n k => n * k) 1
  | .matched => sizes.foldl (fun _ k => k) 1

/-- `config_table_index` (src/explore/model_exploration.rs:249-257); empty in matched mode. -/
def table (mode : Mode) (sizes : List Nat) : Option (List (List Nat)) :=
  match mode with
  | .exaustive => buildConfigurations (nConf mode sizes) sizes
  | .matched => some []

variable {V S : Type}

/-- `input[config_table_index[row][i]]` for every input, in exhaustive mode (src/explore/model_exploration.rs:273-279). -/
def pick (i : Nat) : List (List V) → List (List Nat) → Option (List V)
  | [], _ => some []
  | _ :: _, [] => none
  | input :: inputs, row :: rows =>
    match row[i]? with
    | none => none
    | some k =>
      match input[k]?, pick i inputs rows with
      | some v, some vs => some (v :: vs)
      | _, _ => none

/-- `input[i]` for every input, in matched mode (src/explore/model_exploration.rs:282-288). -/
def pickMatched (i : Nat) : List (List V) → Option (List V)
  | [] => some []
  | input :: inputs =>
    match input[i]?, pickMatched i inputs with
    | some v, some vs => some (v :: vs)
    | _, _ => none

/-- The arguments of the constructor for configuration `i` (src/explore/model_exploration.rs:271-289, 393-411). -/
def config (mode : Mode) (inputs : List (List V)) (tab : List (List Nat)) (i : Nat) : Option (List V) :=
  match mode with
  | .exaustive => pick i inputs tab
  | .matched => pickMatched i inputs

/-- The repetitions of a configuration (src/explore/model_exploration.rs:296-302): `n` rounds from `j` on, on one state. -/
def repeatRows (sim : S → S) (label : Nat → Nat) (i : Nat) : Nat → Nat → S → List (Row S)
  | 0, _, _ => []
  | n + 1, j, s => ⟨i, label j, sim s⟩ :: repeatRows sim label i n (j + 1) (sim s)

/-- The rows of one configuration in `explore_sequential!` (src/explore/model_exploration.rs:268-303). -/
def rowsOf (new : List V → S) (sim : S → S) (rep : Nat) (mode : Mode) (inputs : List (List V)) (tab : List (List Nat))
    (i : Nat) : Option (List (Row S)) :=
  (config mode inputs tab i).map (fun vs => repeatRows sim (fun j => j + 1) i rep 0 (new vs))

/-- Running a list of tasks and joining their results; one panic is a panic (src/explore/model_exploration.rs:388-421). -/
def joinAll {α : Type} (f : Nat → Option (List α)) : List Nat → Option (List α)
  | [] => some []
  | i :: is =>
    match f i, joinAll f is with
    | some a, some b => some (a ++ b)
    | _, _ => none

/-- `explore_sequential!` (src/explore/model_exploration.rs:233-306). -/
def exploreSequential (new : List V → S) (sim : S → S) (rep : Nat) (mode : Mode) (inputs : List (List V)) :
    Option (List (Row S)) :=
  match table mode (inputs.map List.length) with
  | none => none
  | some tab => joinAll (rowsOf new sim rep mode inputs tab) (List.range (nConf mode (inputs.map List.length)))

/-- One task of `explore_parallel!` (src/explore/model_exploration.rs:388-421). -/
def taskRow (new : List V → S) (sim : S → S) (rep : Nat) (mode : Mode) (inputs : List (List V)) (tab : List (List Nat))
    (run : Nat) : Option (List (Row S)) :=
  (config mode inputs tab (run / rep)).map (fun vs => [⟨run / rep, run % rep, sim (new vs)⟩])

/-- `explore_parallel!` (src/explore/model_exploration.rs:355-424). The order of `collect` is that of the range, whatever the
order of execution. -/
def exploreParallel (new : List V → S) (sim : S → S) (rep : Nat) (mode : Mode) (inputs : List (List V)) :
    Option (List (Row S)) :=
  match table mode (inputs.map List.length) with
  | none => none
  | some tab => joinAll (taskRow new sim rep mode inputs tab) (List.range (nConf mode (inputs.map List.length) * rep))

/-! ### MPI -/

/-- `local_conf_size` (src/explore/mpi/model_exploration.rs:187-192). -/
def localSize (n procs rank : Nat) : Nat := if rank < n % procs then n / procs + 1 else n / procs

/-- The rows of the `i`-th configuration of a process (src/explore/mpi/model_exploration.rs:197-242): the configuration is
`i * procs + rank`, the label is `i`. -/
def rowsMpi (new : List V → S) (sim : S → S) (rep : Nat) (mode : Mode) (inputs : List (List V)) (tab : List (List Nat))
    (procs rank i : Nat) : Option (List (Row S)) :=
  (config mode inputs tab (i * procs + rank)).map (fun vs => repeatRows sim (fun j => j) i rep 0 (new vs))

/-- `rep_conf` (src/explore/mpi/model_exploration.rs:141-145). -/
def repMpi (rep : Nat) : Nat := if rep = 0 then 1 else rep

/-- The dataframe of a process (src/explore/mpi/model_exploration.rs:196-242). -/
def localRows (new : List V → S) (sim : S → S) (rep : Nat) (mode : Mode) (inputs : List (List V)) (tab : List (List Nat))
    (procs rank : Nat) : Option (List (Row S)) :=
  joinAll (rowsMpi new sim (repMpi rep) mode inputs tab procs rank)
    (List.range (localSize (nConf mode (inputs.map List.length)) procs rank))

/-- `samples_count` at the root, whose own size is `own` (src/explore/mpi/model_exploration.rs:252-261); `own - 1` panics for
`own = 0`. -/
def samplesCount (n procs own rep : Nat) : List Nat → Option (List Nat)
  | [] => some []
  | i :: is =>
    if i < n % procs ∨ n % procs = 0 then (samplesCount n procs own rep is).map (fun l => own * rep :: l)
    else if own = 0 then none
    else (samplesCount n procs own rep is).map (fun l => (own - 1) * rep :: l)

/-- `displs` (src/explore/mpi/model_exploration.rs:264-271). -/
def displs : Nat → List Nat → List Nat
  | _, [] => []
  | acc, x :: xs => acc :: displs (acc + x) xs

/-- `gather_varcount_into_root`: the rows of each process are stored at its displacement. The number of rows must be the
announced one and the place must be inside the buffer (src/explore/mpi/model_exploration.rs:249-280). -/
def gather {α : Type} : List α → List (Nat × Nat) → List (List α) → Option (List α)
  | buf, [], [] => some buf
  | buf, (count, displ) :: ps, rows :: rest =>
    if rows.length = count ∧ displ + count ≤ buf.length then
      gather (buf.take displ ++ rows ++ buf.drop (displ + count)) ps rest
    else none
  | _, _, _ => none

/-- All processes compute their rows (src/explore/mpi/model_exploration.rs:196-242). -/
def allLocal {α : Type} (f : Nat → Option (List α)) : List Nat → Option (List (List α))
  | [] => some []
  | r :: rs =>
    match f r, allLocal f rs with
    | some a, some b => some (a :: b)
    | _, _ => none

/-- The result at the root (src/explore/mpi/model_exploration.rs:249-280): the buffer has `n_conf * $rep_conf` copies of the
first row of the root, which must exist. -/
def collectRoot (n procs rep : Nat) (locals : List (List (Row S))) : Option (List (Row S)) :=
  match locals with
  | (first :: _) :: _ =>
    match samplesCount n procs (localSize n procs 0) (repMpi rep) (List.range procs) with
    | none => none
    | some counts => gather (List.replicate (n * rep) first) (counts.zip (displs 0 counts)) locals
  | _ => none

/-- `explore_distributed_mpi!` (src/explore/mpi/model_exploration.rs:121-289), the dataframe at the root. -/
def exploreMpi (new : List V → S) (sim : S → S) (rep : Nat) (mode : Mode) (inputs : List (List V)) (procs : Nat) :
    Option (List (Row S)) :=
  match table mode (inputs.map List.length) with
  | none => none
  | some tab =>
    match allLocal (localRows new sim rep mode inputs tab procs) (List.range procs) with
    | none => none
    | some locals => collectRoot (nConf mode (inputs.map List.length)) procs rep locals

end Verif.Explore
