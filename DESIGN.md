# Design of the verification

The target is the rust source in /repo (krABMaga 0.5.0). The source is read as text and transcribed
by hand into Lean 4 definitions; nothing in /repo is built or run. The theorems are about the
transcription. Everything below says what was transcribed, how, and what was left out.

## Layout

* `lean/Verif/Model/*.lean` – the model. Each definition cites the file and lines it transcribes and
  states its simplifications.
* `lean/Verif/Spec/*.lean` – the independent specifications (plain maps, bag maps, Cartesian products,
  multisets, ...). They mention no helper of the model.
* `lean/Verif/Lemmas/*.lean` – helper lemmas.
* `lean/Verif/Props/*.lean` – the property theorems (named `C<nn>_...`), with an `example` beside each
  showing a non-trivial case that meets the hypotheses.
* `lean/Verif/Conformance/*.lean` – the tests of /repo/tests (grids, fields, networks, schedule, sequential and
  parallel) run on the model by kernel evaluation. They compare the transcription with what the code is known to do; they
  are tests and no claim rests on them.
* `seeded/LOG.jsonl` – mutation attempts. `MANIFEST.json` – property to theorem map.

## Modelling conventions

* **State machines.** A structure is a Lean structure, `&mut self` methods are functions
  `State → State × Result`, histories are lists of commands folded over the initial state.
* **Panics and non-termination** are explicit: `Option`/`Except` results, never a default value. Loops
  that may not terminate take fuel or a finite stream of random draws and the theorem says what
  happens for every fuel / stream.
* **HashMap** (`hashbrown`, `std`) is an association list with distinct keys in *some* order. Theorems
  quantify over all such lists, hence over every iteration order.
* **`priority-queue` crate.** The queue is a list of `(item, priority)` with distinct item ids. `push`
  of an item equal to a stored one replaces only the priority (this is the documented behaviour of
  `PriorityQueue::push`, crate version ^1.2.1). `pop` returns an item whose priority no other exceeds; which of
  several is decided by an oracle function that may depend on the whole history (ghost pop counter) –
  the theorems hold for all oracles.
* **User code** (agents, state, closures, fitness functions, RNG, hash functions) is a parameter:
  total functions, universally quantified. A rust closure that panics or diverges is not modelled.
* **Integers.** `u32`/`u64`/`usize`/`i32` are `Nat`/`Int`; overflow is only modelled where the property
  is about it (C16: 64 bit shifts; C12: single precision `+ 1.0`; C72: `usize` subtraction).
* **Floats.** Positions of `Field2D` and the kd-tree are exact rationals (`Rat`): rounding is *not*
  modelled except for C12 and C171 to C174 (`Model/Single.lean`, `Model/SingleField.lean`: every operation of the
  continuous field in `f32` rounded to nearest, exponents unbounded above) and C181 to C194 (`Model/Machine.lean`: `f32` with overflow, infinities, NaN and
  saturating casts; `Lemmas/MachineIeee.lean` proves these operations against a specification of their own, `Spec/MachineIeee.lean`: results with infinities are limits, NaN where
  there is none, finite results are the nearest `f32` up to the overflow threshold; -0 is 0). Random and bayesian search, plots and the genetic searches use `Fl`, a model of
  floats with NaN and infinities and exact finite values (`Model/Fl.lean`). `sqrt(dx²+dy²) <= d` is modelled as `dx²+dy² <= d²` (equivalent for
  `d >= 0` in exact arithmetic). Schedule times are an arbitrary linear order with an arbitrary
  function for `+ 1.0`, so the schedule theorems hold for `f32` without NaN; C12 has an explicit
  single-precision integer model; C192 to C194 have all f32 times, NaN and infinities included.
* **Locks and threads.** Where the code uses threads (parallel schedule, concurrent placements on the
  `parallel` grids and fields, the terminal interface, the csv writer) the atomic sections (everything
  done between taking and releasing a mutex, or one channel operation) are the steps of an
  interleaving, and theorems quantify over all interleavings. Mutex poisoning is not modelled. MPI calls are
  modelled by their effect on the buffers (gather = concatenation by counts and displacements).

## Trusted base

* Lean's kernel, and Lean's `propext`, `Classical.choice`, `Quot.sound` (no other axiom is used; the
  exact list for each property theorem is in the last section).
* The hand transcription from rust to Lean (reviewed line by line, cited in each definition).
* The contracts of external code as listed above: `Vec`, `HashMap`, `PriorityQueue`, `rand`, channels,
  `csv`, MPI.
* The conventions above (exact arithmetic for floats except C12, C171 to C174 and C181 to C194, no integer overflow unless stated).

This file was first written before the proofs (see the git history); the sections from "Outcome" on were
filled in while proving and are kept current.

## Properties: what is modelled and how it is proved

"proved" means the full statement. "partial" means that the statement as given is false of the code
or needs a restriction: the negation is proved with a concrete witness, together with the strongest
correct part; these theorems are named `_partial`. What exactly was proved and what is missing is in
the section "Outcome".

| id | property | model | proof | status |
|----|----|-------|-------|----------|
| C01 | A step runs exactly the due agents | `Schedule.step` over a queue with tie-break oracle | the pop loop returns a permutation of the minimum-time entries (induction on the number of pops) | proved |
| C02 | Agents of one batch run in ordering order | same | each popped entry is maximal among those left, hence sorted by ordering | proved |
| C03 | What stays scheduled after a step | same, plus the reschedule loop | the queue after the loop is a permutation of (later ++ map reschedule) under distinct ids | proved |
| C04 | The simulation clock never runs backwards | same, run over a list of commands | invariant "all pending times ≥ clock" by induction over commands | proved |
| C05 | A repeating agent runs once per time unit | n-fold step with rational/integer times | invariant relating each agent's execution log to its next pending time | proved |
| C06 | Step counter and hook order | step emits a trace of hook events | direct, induction over the number of steps | proved |
| C07 | A step with nothing scheduled is harmless | same | direct | proved |
| C08 | schedule_repeating hands out fresh ids | command histories | invariant: ids below the counter, distinct; history induction | proved |
| C09 | dequeue removes exactly the named agent | dequeue | direct plus non-execution over later steps | proved |
| C10 | schedule_once schedules the agent it is given | schedule_once | false: an equal id only changes the priority of the old item; correct part for fresh ids | partial |
| C11 | Runs do not depend on the heap's tie-breaking when priorities are distinct | two oracles | the batch is the unique sorted list when keys are distinct; batch as a set always | proved |
| C12 | Time keeps advancing for repeating agents | integer single-precision model (`+1.0` with round to nearest even) | strict below 2^24, stalls at 2^24 | partial |
| C13 | Parallel step: every event handled once, whatever the thread interleaving | parallel step: round-robin batches, interleavings | batches partition the events; interleaving-independent result | proved |
| C14 | Parallel step runs only due agents | parallel step | false: all events are run regardless of time | partial |
| C15 | The sharded map is observably a pair of plain maps | sharded map with arbitrary hash | simulation with a pair of abstract maps over command histories | proved |
| C16 | Shard index is always in bounds | 64 bit arithmetic on Nat | `(h*2^7 mod 2^64) / 2^(64-k) < 2^k` | proved |
| C17 | lazy_update publishes the write map and empties it | sharded map | direct from C15's abstraction | proved |
| C18 | update makes the read side equal to the write side | update | false after a remove; correct part: keys present on the write side | partial |
| C19 | insert returns the value it replaces | insert | false: always `None` | partial |
| C20 | DenseNumberGrid2D is a double-buffered cell map | dense number grid as two lists of options | simulation with a pair of abstract maps over histories | proved |
| C21 | Distinct cells never alias in a dense grid | index arithmetic | false out of range (aliasing); injective in range | partial |
| C22 | Dense number grid queries are exact | queries as list traversals | exactness by list induction | proved |
| C23 | apply_to_all_values on the dense number grid | three options | cellwise description | proved |
| C24 | get_random_empty_bag returns an empty in-range cell, or None iff there is none | dense: choice among empty cells; sparse: rejection sampling with a draw stream | dense total; sparse never terminates on a full grid | partial |
| C25 | SparseNumberGrid2D is a double-buffered cell map | sparse number grid as association lists | simulation | proved |
| C26 | Sparse number grid queries are exact | queries | exactness | proved |
| C27 | Dense and sparse number grids are interchangeable | both grids | false for apply with WRITE; agreement on the other operations | partial |
| C28 | DenseGrid2D is a double-buffered bag map | dense object grid as two lists of bags | simulation with bag maps | proved |
| C29 | Dense object grid queries are exact | queries | exactness | proved |
| C30 | DenseGrid2D::update publishes the write state | update via `Vec::insert` | false: storage grows; correct part: the first update publishes | partial |
| C31 | apply_to_all_values tells the closure where the object is | calculate_indexes_bag | false; correct part: bag index on the diagonal / characterisation | partial |
| C32 | apply_to_all_values removes an object when the closure returns None | apply | false (dense READWRITE keeps, sparse panics); correct part for dense READ/WRITE | partial |
| C33 | SparseGrid2D is a double-buffered bag map | sparse object grid | simulation, no empty bag invariant | proved |
| C34 | Sparse object grid queries are exact | queries | exactness | proved |
| C35 | Field2D placement is a double-buffered bag map over discretized cells | Field2D over rationals | simulation with bag maps keyed by cell | proved |
| C36 | Every position inside the field has a cell | discretize, storage size | floor/ceil arithmetic | proved |
| C37 | Neighbour search returns only objects within the distance | neighbour search | convexity for non-toroidal; toroidal false for large distances | partial |
| C38 | Neighbour search finds every object within the distance | neighbour search | false: clamping of the searched cells is inverted / cell radius; correct part | partial |
| C39 | Neighbour search returns no object twice | neighbour search | false without toroidal? / duplicates through clamping and wrapping; correct part | partial |
| C40 | The relaxed search contains the exact search | both searches | sublist induction | proved |
| C41 | Toroidal coordinate arithmetic | toroidal arithmetic | rational floor arithmetic | proved |
| C42 | Cell wrap-around maps into the grid | t_transform | false for negative multiples of size; correct part | partial |
| C43 | Field2D density bookkeeping | counters | history invariant | proved |
| C44 | Network reads are isolated from writes until update | network as two records | history simulation | proved |
| C45 | Undirected networks stay symmetric | network | false for multi-edges with remove_edge; correct part for simple histories | partial |
| C46 | Node ids are unique | add_node uid | false after removal; correct part without removals | partial |
| C47 | add_edge adds exactly one edge | add_edge | direct | proved |
| C48 | Edges only mention existing nodes | network | false after remove_node with parallel edges; correct part | partial |
| C49 | remove_edge removes one edge between the two nodes | remove_edge | false for multigraphs; correct part for simple graphs | partial |
| C50 | remove_node removes the node and all its edges | remove_node | false for multigraphs; correct part | partial |
| C51 | Preferential attachment builds the promised graph | BA construction with arbitrary random draws | induction over nodes | proved |
| C52 | remove_all_edges leaves every node with an empty adjacency | remove_all_edges | false: adjacency entries vanish | partial |
| C53 | Hyperedges are listed by each of their members | hypernetwork | history invariants; counterexamples where false | partial |
| C54 | No node lists a hyperedge twice | hypernetwork | history invariants; counterexamples where false | proved |
| C55 | HNetwork::add_edge reports what it did | hypernetwork | history invariants; counterexamples where false | partial |
| C56 | remove_object removes the node from the hypergraph | hypernetwork | history invariants; counterexamples where false | partial |
| C57 | The kd-tree blocks tile the field | kd-tree subdivision over rationals | induction over splits, tiling invariant | proved |
| C58 | Halo agents reach every process that needs them | halo insertion | false for corners; correct part | partial |
| C59 | Exhaustive exploration enumerates the Cartesian product | build_configurations! as list program | row formula = digits in mixed radix; bijection to the product; empty list panics | partial |
| C60 | Exploration rows are labelled consistently | exploration loops | false: labels and state reuse differ; correct part | partial |
| C61 | Distributed exploration covers each configuration once | MPI index arithmetic | partition proofs; label false | partial |
| C62 | Genetic search reports the best individual evaluated | GA loop with arbitrary callbacks | loop invariant | proved |
| C63 | Distributed genetic search assigns individuals and fitnesses correctly | MPI GA index arithmetic | false if population size changes; correct part | partial |
| C64 | Cloud genetic search evaluates each individual the requested number of times | AWS workload split | counting | proved |
| C65 | Random search never gets worse and returns its best sample | random search | loop invariant | proved |
| C66 | Bayesian search returns the best evaluated point | bayesian search | loop invariant | partial |
| C67 | gen_param yields the requested values | gen_param! | false for n = 0; correct part | partial |
| C68 | simulate! runs each repetition to its limit or end condition | simulate! loop | characterisation of the number of steps | proved |
| C69 | Plots keep every point and tight bounds | plot!/addplot! | history invariants | partial |
| C70 | Points saved as CSV land in the file of their repetition | CSV thread message machine | false for points plotted in init | partial |
| C71 | Logs of the current repetition come first, newest first | log list | history invariant | proved |
| C72 | Terminal navigation stays in range | UI navigation | false: underflow when a log is selected and logs become empty | partial |
| C73 | check_reproducibility is sound and total | check_reproducibility! | false: prefix accepted / panic; correct part for equal lengths | partial |
| C74 | Random empty cells of a continuous field are inside the field | get_random_empty_bag of Field2D with a draw stream | bounds on floor/ceil arithmetic; witness for sizes that are no multiple of the discretization | partial |
| C75 | Iteration over a continuous field visits each placement once | iteration over bags of Field2D | permutation of the placements, from the C35 simulation | proved |
| C76 | get_all_events lists exactly the pending agents | get_all_events | list equality with the queue | proved |
| C77 | A step passes state and schedule through the hooks without loss | step with relational hooks that make API calls | induction over the calls made by the hooks | proved |
| C78 | get_edge agrees with get_edges | get_edge, get_edges | scan of the list; endpoint invariant over histories | proved |
| C79 | remove_incoming_edges and remove_outgoing_edges remove exactly those edges | remove_incoming_edges, remove_outgoing_edges as folds over ids | fold invariants on the edge lists, for each of the four loops (in, out; directed, undirected) with any number of parallel edges; witnesses | partial |
| C80 | HNetwork reads are isolated until update | hypernetwork buffers | history simulation; witnesses for nodes2id | partial |
| C81 | Hyperedges are identified by their node set | hyperedges as node lists with set equality | direct on the scan | proved |
| C82 | Distributed neighbours are exactly the touching blocks | kd-tree corners and neighbour detection | induction over splits, adjacency of boxes | proved |
| C83 | The message exchange never blocks and delivers exactly what was prepared | message exchange as a rendezvous system over the neighbour lists | progress by a smallest-rank argument; delivery by a simulation | proved |
| C84 | Every agent near a foreign block is sent to the owner of that block | halo regions for p processes | the boxes for 2^e + k processes in closed form (subtrees_eq); for powers of two and 6 * 4^j they are products of intervals (Product), so that a near block has a corner in common with the halo; for all other numbers half a box faces a whole one across the end of the field (facing_size), whose halo has no corner in common with it; witness for 3 | partial |
| C85 | The distributed search is the search of Field2D | neighbour search of the distributed field | definitional comparison with C38's model, soundness | proved |
| C86 | A removed agent is not sent to other processes | remove_object_location and halo lists | the halo lists of a program are those of its insertions (induction over the calls); witness | partial |
| C87 | simulate! with the terminal runs the same repetitions as without | simulate! with the interface thread as a two-party system over a channel | invariant over interleavings; witness interleaving | partial |
| C88 | simulate_mpi! runs all repetitions and keeps the processes in step | simulate_mpi! repetitions with barrier and finalize | induction over steps; witnesses | partial |
| C89 | The run reports never fail | widths of the report as usize subtraction | exact inequality for no underflow | partial |
| C90 | Matched exploration pairs the i-th values | explore! matched mode | list zip; panics | partial |
| C91 | Distributed genetic search reports the best individual | distributed GA: the fold over rows | fold maximum; witnesses | partial |
| C92 | Distributed genetic search ends on all processes | distributed GA: loop control per process | round semantics; witnesses | partial |
| C93 | Cloud genetic search reports the best individual evaluated | cloud GA: the fold per generation | fold maximum; witness | partial |
| C94 | Cloud genetic search works for any number of functions | cloud GA: messages of the functions in any order of arrival | permutation invariance; panic for empty message | partial |
| C95 | Sample generation yields points in the cube | gen_samples with an arbitrary rounding | bounds per coordinate | proved |
| C96 | Random search evaluates the sample it generated | random search run | definition unfolded; witness | partial |
| C97 | load_csv! returns the named columns | load_csv! over records | column selection; witness | partial |
| C98 | load_csv! reads back what write_csv wrote | write_csv and load_csv! | round trip given inverse quoting/parsing | proved |
| C99 | Plotting works under every driver | plot! with the channel variable | case analysis; witness | partial |
| C100 | The monitoring chart shows the newest samples | system monitor window of 100 samples | induction over ticks | partial |
| C101 | The terminal interface can always be drawn | gauges of the terminal interface | ratio bounds | partial |
| C102 | Number grids under the feature parallel are double buffered | number grids on `DBDashMap` | simulation with a pair of maps, from C15 | proved |
| C103 | Number grids answer the same with and without the feature parallel | both variants of the number grids run side by side | two simulations; witnesses | partial |
| C104 | Object grids under the feature parallel: an object is in the bag of its location only | object grids on `DBDashMap` keyed by identity | history relation between locations and bags; witnesses | partial |
| C105 | Object grids under the feature parallel: remove_object removes the object | remove_object of the parallel grid | exact effect; witnesses | partial |
| C106 | Object grids under the feature parallel: apply_to_all_values replaces the objects | apply_to_all_values of the parallel grid | exact effect; witness | partial |
| C107 | Concurrent placements on an object grid lose no object | set_object_location split in its atomic sections, threads interleaved | invariant over all interleavings; witness interleaving | partial |
| C108 | Empty-bag queries of the sparse object grid under the feature parallel | empty-bag queries of the parallel grid | exactness; witness | partial |
| C109 | Field2D answers the same with and without the feature parallel | both variants of Field2D run side by side | two simulations, element-wise equal answers | partial |
| C110 | Field2D under the feature parallel: a neighbour search answers in every state | neighbour search of the parallel Field2D | panic iff nothing published | partial |
| C111 | Field2D under the feature parallel: get and get_location answer the published placement | get, get_location | simulation | proved |
| C112 | Field2D under the feature parallel: num_objects counts the published objects | num_objects | counting over shards | proved |
| C113 | Field2D under the feature parallel: an object is shown once, where it is | bags of the parallel field | history invariant; witnesses | partial |
| C114 | Concurrent placements on a Field2D lose no object | set_object_location of the parallel field in atomic sections | invariant over all interleavings; witness interleaving | partial |
| C115 | Field2D under the feature parallel: the unbuffered reads answer the current step | unbuffered reads | exact effect; witness | partial |
| C116 | Network under the feature parallel answers like the network without it | the parallel `Network`, its maps being `DBDashMap`s | simulation of the sequential model; loops over published keys shown independent of the key order; three witnesses | partial |
| C117 | Network under the feature parallel: nothing written is seen before the publication | queries of the parallel `Network` | the read sides of both maps are kept by every write; invariant on ids; witness | partial |
| C118 | Network under the feature parallel: what a publication shows | update of both maps | abstract effect of `DBDashMap::update` | proved |
| C119 | Network under the feature parallel: remove_all_edges removes all edges | remove_all_edges | abstract effect of `clear`, for every reachable network | partial |
| C120 | Network under the feature parallel: remove_node removes the node and its edges | remove_node | simulation of the sequential remove_node and its exact effect; witness | partial |
| C121 | Network under the feature parallel: ids are unique and a new node has no edges | add_node | invariant: ids contiguous and the two maps inverse; witness | partial |
| C122 | Network under the feature parallel: edges and nodes fit together | get_edge and the lists | invariant; symmetry through the simulation; witness | partial |
| C123 | Network under the feature parallel: add_prob_edge adds edges to different nodes | add_prob_edge, the choice a parameter | exact counts of the written lists by induction over the chosen nodes; an invariant of histories with removed nodes; witnesses for reused ids | partial |
| C124 | Network under the feature parallel: preferential attachment builds the Barabasi-Albert graph | preferential attachment | simulation of C51, then the effect of the publication; witness | partial |
| C125 | simulate!: the terminal shows steps and repetitions in order, each at most once | two threads, two slots, a channel; atomic steps | invariant over all interleavings: where the value read or in the slot is among those put | proved |
| C126 | simulate!: the last step and the last repetition are shown | as C125 | witness interleavings and a closed set of quiet states; calm interleavings: invariant, then progress in 13 steps | partial |
| C127 | simulate!: the terminal closes when the last repetition meets its end condition | as C125 | as C126 | partial |
| C128 | Visualization: the texture of a number grid shows every cell in its place | image as width, height, list of pixels; flip_horizontal, rotate180 | index arithmetic in the flattened rows | proved |
| C129 | Visualization: the simulation advances one step per fixed time step while it is not paused | application: world, paused, sprites; events | induction over the events against a counter | proved |
| C130 | Visualization: a simulation that is watched ends where simulate! ends it | as C129 and the driver of simulate! | induction over the steps; witness | partial |
| C131 | Visualization: every scheduled agent is drawn at its location | sprites with the user's functions as parameters | cases on get_agent; length of the sprites is invariant; witness | partial |
| C132 | Visualization: what AgentRender::update sets is what is drawn | as C131 | cases; induction over the frames for the drift | partial |
| C133 | Visualization: the objects of an object grid are drawn where they are | object sprites with the user's functions as parameters | cases on fetch_loc; induction over the frames | partial |
| C134 | Visualization: the edges of a network join the current locations of their nodes | lines with the locations of the beginning | induction over the frames; negation for every line | partial |
| C135 | Visualization: the simulation area fills the window right of the panel, and agents are aligned with cells | SimulationDescriptor, camera, projection over rationals | field arithmetic | proved |
| C136 | Visualization: each emoji is loaded once | cache as association list, log of loads | invariant of the cache over the requests | proved |
| C137 | Terminal interface: the keys do what the help says | state of the interface and its events | induction over the events; remainder arithmetic for the selection | proved |
| C138 | A whole simulation is synchronous: all agents see the previous step | Bird::step, Flocker::init and update on top of the models of schedule, driver and Field2D | an abstract interface of the field (what is published, what is written) with laws; induction over the turns of a step and over the steps; the sums over the neighbours are invariant under permutation | proved |
| C139 | A simulation gives the same result with and without the feature parallel | the same functions on the parallel schedule and field | the parallel field satisfies the same laws; a parallel step is a permutation of turns (C13) | proved |
| C140 | The birds of the flockers simulation stay inside the world | as C138 | concrete runs evaluated by the kernel | partial |
| C141 | Models that look and then place are synchronous | generic agents (look, decide, place or die), state and driver on top of the models of schedule and parallel schedule | laws of a field (Spec/Synchronous); induction over the turns of a step, then over the steps, sequential and parallel steps both being permutations of turns | proved |
| C142 | Agents on the object grids act at once | the object grids, sequential and parallel, as instances | the laws from the representation invariants of the grids | proved |
| C143 | Agents in a continuous field act at once | Field2D, sequential and parallel, as instances | the laws from the representation invariants of the field | proved |
| C144 | A model does not depend on the grid it uses nor on the feature parallel | as C142 and C143 | the specification is the same function of the agents for all of them | proved |
| C145 | Printing a network shows its adjacency matrix | Display (loops over ids, expects) on top of the network model | cells by C78's lemma, loops by induction; gaps give the panic | partial |
| C146 | Keys are ordered, compared and hashed consistently | cmp, partial_cmp, eq, hash on all floats incl. NaN and infinities | case analysis to the order of numbers, then the laws; finite times agree with the comparison used in the schedule model | partial |
| C147 | The columns of a data frame fit their names | struct as named fields in declaration order, new, field_names, to_string; write_csv of C98 | reading by name what was stored by name; position of parameters | proved |
| C148 | Rows of explorations travel between processes without loss | struct layout as arbitrary offsets, blocks of the datatype, receive | blocks are exactly the typed fields | proved |
| C149 | Each repetition stores a picture of each plot | the drawing loop with its two counters, file names, loop over plots and repetitions | counters are k mod 3 and k mod 6; induction over plots and repetitions | partial |
| C150 | A repeating agent runs once in every parallel step | the parallel step as a relation over interleavings | every interleaving is a permutation of the pending agents; induction over steps | proved |
| C151 | The parallel step counter and hooks | trace of hook calls and agent calls | trace of a step computed once for all interleavings; induction over the program | proved |
| C152 | The parallel clock | the peek that sets the clock | the top of the heap is earliest; turns never move a time backwards | proved |
| C153 | Parallel ids are consecutive | registrations in the trace | turns register nothing; induction | proved |
| C154 | A parallel step with nothing scheduled is harmless | process::exit as an outcome | the only outcome with nothing pending | partial |
| C155 | The chart of a plot shows all its points | draw_tab: datasets, bounds, labels; f64 sums and products as parameters | bounds of C69, two laws of rounding | partial |
| C156 | The series of a chart look different | the two counters of draw_tab | counters are k mod 3 and k mod 7; 21 cases of remainders | partial |
| C157 | The bars of the repetitions can be read | max, digits, size_bar | length of decimal representation; table of C137 | partial |
| C158 | The logs can be read | Display of logs, the list, the file | C71; prefix-free type texts; splitting at line breaks | partial |
| C159 | Visualization: textures show the current state | assets, entities with markers, render, batch_render, frames between events | exactly one entity per marker is an invariant; C128 for the pixels | proved |
| C160 | Visualization: an arrow has a symmetric head at its end | the path with cos, sin, atan2 as parameters | addition theorems in the real numbers | proved |
| C161 | Parallel field calls never hang | functions as lists of mutexes taken and released, small-step interleaving semantics | ranks for mutexes, invariant, maximal rank argument | proved |
| C162 | Parallel steps never hang | step, threads and hooks as such lists, spawn and join as events | ranks: end of threads, start of threads, mutexes | proved |
| C163 | Closures on values may use the grids | closures of apply_to_all_values under the guards of their shards | a thread that will take a mutex it holds; two threads in opposite order | partial |
| C164 | The threads of the Simulation Terminal never hang | five threads of simulate! with channel events | ranks as in C162 | proved |
| C165 | Arguments of the macros may be any expressions | macros with what their arguments do | a thread that will take a mutex it holds | partial |
| C166 | Visualization: systems never hang | systems with their resources and mutexes | at most one system holds the state, alone it never takes a mutex twice | proved |
| C167 | No borrow errors in sequential programs | functions of the sequential fields and networks as lists of RefCell actions, programs with nested closures | induction on programs; what is borrowed never meets the field used | proved |
| C168 | Closures may call the field they run over | the same | case analysis over all iterations and functions | partial |
| C169 | Flockers: birds keep their speed | bird.rs as in C138 | exact scaling; C138 and C139 lift it to whole runs | proved |
| C170 | Flockers: birds steer by means | bird.rs as in C138 | the loop as sums over the other birds | partial |
| C171 | Single precision: positions are wrapped into the torus | toroidal_transform with `%` exact and the addition rounded; `single` is IEEE round to nearest even on unbounded exponents | fmod of singles is a single; nearest and monotone rounding | partial |
| C172 | Single precision: torus distance is the shortest way | toroidal_distance with every operation rounded | case split as in C34 with error bounds | proved |
| C173 | Single precision: the continuous field shows what was placed | the field methods with rounded quotients | the rounded field is the exact field on the rounded quotients with discretization 1; C35 transferred | partial |
| C174 | Single precision: neighbourhood search | the searches with rounded quotients, corners, differences, squares, sum and a correctly rounded square root | error bounds for the norm and the corners; C37/C38 replayed with an allowance | partial |
| C175 | Single precision: wrapped positions are always safe | as C171 and C173 | C171 gives positions in [0, dim]; the extra row and column of cells take those at dim; C173 | proved |
| C176 | A panic in an agent is never lost | hooks that return or panic; workers with batches and a poisoned flag, one iteration at a time | induction on the runs of the workers; every order is realized by some run | proved |
| C177 | The terminal is left as it was found | the modes of the terminal and the calls that change them, three threads and the main thread, each call succeeding or failing | invariant along all runs; the negations for every history before the panic | partial |
| C178 | Dense grids of every size work | the index arithmetic of the dense grids in i32, wrapping (release) or panicking (debug) | below 2^31 cells every operation is the one without bounds; above, the last cell is out of the vector or negative | partial |
| C179 | Every agent is scheduled, however many there have been | the schedule with a u32 counter of agents, wrapping (release) or panicking (debug) | the counter only grows and counts the registrations (C01); the negations by induction up to 2^32 calls | partial |
| C180 | Single precision: the locations the field hands out lie in their cells | as C173, with not_discretize and the functions that use it | the rounded multiple divided by d again is within 1/2 of the number of the cell; witnesses by evaluation | partial |
| C181 | Machine floats: a position that is not a number is refused | Model/Machine, Model/MachineField: f32 with infinities and NaN, the saturating cast to i32, i32 arithmetic of both builds, Vec indices; Field2D new, set, remove, get, lazy_update on them | agreement with the single precision model (Lemmas/Machine) as long as all quantities stay small, then C173; the witnesses hold on every field | partial |
| C182 | Machine floats: searches with any distance, in debug and release builds | as C181, with both neighbourhood searches | agreement with the single precision model, then C174; for the converse, saturation of the number of cells and overflow of the loop bounds | partial |
| C183 | Machine floats: wrapping and distances give numbers | as C181, with toroidal_transform, toroidal_distance, distance and check_circle | NaN goes through every operation and compares false | partial |
| C184 | Agents that depend on the order in which they see others still act at once | the model of C141 (schedule, driver, fields as lawful operations); rules as functions of the list seen | invariant of Lemmas/Arranged over steps: what was seen by each agent is recorded as a permutation of its view | proved |
| C185 | Machine floats: agents in a continuous field act at once | Model/MachineFlockers.agentOps on the field of C181 | the machine field is a lawful field (Lemmas/MachineAgents: agreement with the single precision field, whose image is the exact field of C143), then C184 | proved |
| C186 | The birds of the flockers simulation stay numbers | Model/MachineFlockers: the rule of bird.rs operation by operation in f32 | bounds through all operations (Lemmas/MachineBirds): sums of any number of terms up to 2^59 stay below 2^84 because larger sums absorb them; divisions by at least 1; the computed length is at least half of each coordinate; then C185. The converse: NaN goes through every operation | partial |
| C187 | The flockers simulation does not depend on the order of the birds | as C186 | sums of two floats commute, nobody is seen twice, so runs agree round by round; the witness is computed | partial |
| C188 | Machine floats: the parallel field shows an object only where it is | Model/ParMachineField on DBDashMap (C105) and machine floats (C181) | refinement of the three double buffered maps to what is placed and published (Lemmas/ParMachine.FShows), cells by `near_cell` and the saturation lemmas of C181 | partial |
| C189 | Machine floats: the continuous field answers alike with and without the feature parallel | as C188, and the field of C181 | joint invariant of both fields over the program (`same_run`): the bags of one are the cells of the other; then both scans visit the same cells | partial |
| C190 | Machine floats: a search of the parallel field does not fail for want of memory | `capacity` and `reserve` in Model/ParMachineField: usize arithmetic in both builds, the capacity overflow panic | bounds of the product; `usize::MAX` times the density modulo 2^64; witnesses computed | partial |
| C191 | Machine floats: agents in the parallel continuous field act at once | Model/ParMachineField.agentOps, the parallel step of C141 | the parallel machine field is a lawful field whose view is that of the sequential one (`parLaws`), then C184 | proved |
| C192 | Machine floats: a step runs exactly the agents that are due | Model/MachineSchedule: the schedule of C01 with comparisons of machine floats; with NaN and more than two entries any entry may be at the root of the heap | without NaN the machine schedule is that of C01 over a linear order of f32 (`step_eq`), an invariant of programs without NaN (`run_invariant`); with NaN directly on the pop loop (`popDue_any`) | partial |
| C193 | No agent waits for ever | as C192 | generic over linear orders (Lemmas/Waiting): each step lowers the sum of the ranks of the earlier entries (`served`), and an invariant for the agent that cannot get past a time (`starves`); a time in the range advances by a half at least (`advance_half`), any other by 0 or 2 (`advance_coarse`), ties decided by `single_even` | partial |
| C194 | Machine floats: a step loses no agent and runs none twice | as C192 | `midStep_any`: the pop loop splits the queue, whatever the comparison does | proved |
| C195 | Distributed field on machine floats: every location has a block | Model/KdMachine: the subdivision, boundary points, halo regions and search on machine floats (rounded operations, NaN, infinities) | with bits to spare nothing is rounded (`createTree_fit`), so C57 applies; witnesses by kernel evaluation of the model | partial |
| C196 | Distributed field on machine floats: the neighbours are exactly the touching blocks | as C195 | `createTree_fit` and C82; witness by kernel evaluation of the model | partial |
| C197 | Distributed field on machine floats: blocks and neighbours are consistent whatever the numbers | as C195 | structure of the subdivision loops, independent of the numbers (`createTree_spec`), symmetry of float equality (`sharePoint_comm`) and the argument of C83 (`ready_progress`) | proved |
| C198 | An agent placed again in the same step is shown once, in its newest version | Model/DenseObjectGrid, SparseObjectGrid, Field2D with `[BEq O]`: the objects' own `==` | membership of `bagWritten` characterised by the newest equal placement (`mem_bagWritten_iff`), the field through the grid of its squares; witnesses by evaluation | partial |
| C199 | Sequential and parallel genetic search agree | Model/Genetic: both loops | simulation of the two loops step by step; witnesses by evaluation | partial |
| C200 | A fitness that is not a number does not hide the best individual | Model/Genetic with a comparison that is false on NaN | invariant of the loop on the best of the generations that begin with a number; instance for floats; witnesses | partial |
| C201 | The cloud genetic search makes its populations as the other modes do | Model/GeneticAwsLoop: the loop of generations around Model/GeneticAws | induction on the generations against Spec/GeneticAws (`Descends`, `Stops`); length count for the growth | partial |
| C202 | An individual comes back from the cloud functions as it was sent | Model/GeneticAwsLoop: `readString`, reading a JSON string after the unescaped writing | length argument: reading back as many characters as were written leaves no room for escapes | partial |
| C203 | The terminal shows the repetition that runs and its progress | Model/Gauges over the two threads of Model/Terminal | the shown repetitions are a prefix of the sent ones, in every interleaving; witnesses by evaluation | partial |
| C204 | plot! evaluates its arguments as a function would | Model/PlotArgs: plot! with expressions as functions of a state | evaluation with constant values is compared with the model of plot!; witnesses with a counter as random numbers | partial |
| C205 | The speed slider keeps the speed | Model/Slider: as_secs_f64, the division, the clamp, the division back, from_secs_f64 | relative error at most 2^-53 per rounding; the total is below half a nanosecond up to 10 s | proved |
| C206 | Printed values tell equal from different | Model/Texts: Display of the engine | the words of a text can be told apart at the spaces; decimal digits read back; witnesses | partial |
| C207 | Visualization: settings are used as given or documented | Model/Builder: builder calls and setup, over Model/Visual | fold against the last setting of each kind; the centre does not depend on the window | partial |
| C208 | Explorations run in the mode asked for | Model/Dispatch | case analysis over all features | partial |
| C209 | DBDashMap: the number of processors may change | Model/DBDashCpus: the three loops with the number of shards asked at the call, over Model/DBDashMap | the loops in closed form (first n shards of one list, the others of another), then the abstraction of C15 | partial |
| C210 | get_edges returns the edges its documentation counts | Model/Network | induction on the program with the stored lists in closed form, over C47 | partial |
| C211 | A field has the documented number of empty bags | Model/Field2D | counting the corners listed by C43 | partial |
| C212 | Preferential attachment draws with the degrees as weights | Model/Network, Model/ParNetwork | refinement: invariant that the table of weights is the table of degrees of the edges made so far | proved |
| C213 | Agents on a network act at once | Model/SyncNodes (over Model/Synchronous, Schedule, Driver, Network, ParNetwork) | simulation: invariant relating the world to the rounds of the specification; laws of a field whose nodes stay, proved for both networks | proved |
| C214 | An infection on a network passes one edge per step | Model/SyncNodes | induction over the rounds of C213 | proved |
| C215 | The order of the agents does not decide which edges a network has | Model/Network, Model/ParNetwork | the edges between two ids are changed only by calls about these two ids, and in a way that depends on these edges only; lists with the same edges between every two ids are permutations of each other; parallel by the simulation of C116 | partial |
| C216 | Agents on a hypernetwork act at once | Model/SyncHyper (over Model/SyncNodes, Synchronous, Schedule, Driver, HNetwork) | laws of a field whose nodes stay, proved for HNetwork, with the simulation of C213 | proved |
| C217 | A cellular automaton on a number grid changes all its cells at once | Model/SyncCells (over Model/Synchronous, Schedule, Driver, DenseNumberGrid, SparseNumberGrid, ParGrid) | laws of a field, proved for the number grids, with the simulation of C141 | proved |
| C218 | An automaton may be published with update or with lazy_update | Model/SyncCells | laws of a field whose nodes stay, proved for the parallel number grid with update, with the simulation of C213; negation by a concrete automaton of two cells | partial |
| C219 | A trail on a number grid evaporates once in every step | Model/DenseNumberGrid, SparseNumberGrid, ParGrid; the program is Spec/Scent.trail | induction over the steps with the content of both buffers; the closed form is independent of the grids; negation by a concrete program | partial |
| C220 | The order of the writes within a step does not matter for a number grid | Spec/Scent: latest, scent, lateScent, tied to the grids by C219 | latest deposit is a function of the set of deposits if they do not conflict; a conflict is turned into two orders; concrete program | partial |
| C221 | A population with births and deaths goes from generation to generation | Model/Births over Model/Schedule, Model/ParallelSchedule and any FieldOps | the turns of a step in any order are tallied (random value and first child's number of each); survivors and offspring are a permutation of nextGen; after_step's calls push entries with the next numbers at the clock of the step; induction over the steps | proved |
| C222 | Populations grow in the same way on every field of the library | Model/Births with denseOps, sparseOps, parGridOps, fieldOps, parFieldOps | C221 with denseLaws, sparseLaws, parGridLaws, fieldLaws, parFieldLaws | proved |
| C223 | The agents that an agent returns from before_step or after_step are scheduled | Model/Reproduce: the step with the results of the agents' hooks | the model equals the model without results; ids of pending agents only shrink; negation by a concrete program | partial |
| C224 | Repetitions are independent | Driver (runReps, runRepsT, checkReproducibility), Synchronous, DenseNumberGrid | resetReps resets between the repetitions; equality by induction on the number of repetitions; for fields from C141_repetitions; a counterexample on a number grid | partial |
| C225 | A distributed model comes to the agents of one process | KdTree; the model of the user is Spec/Distributed (place, turns, welcome, publish, distStep) | an invariant of all processes (Settled): agents split by the owner of their position, what a process shows is its own agents and those of the halos, which look the same as all agents from every position of its block; kept by turns, exchange and publish for every layout with the properties Net, which one process, 2^e and 6 * 4^j processes have; witnesses by evaluation | partial |
| C226 | A distributed agent sees what it would see on one process | as C225 | the search is a function of what is shown (search_found), which from a position of the own block has the same agents within sight as the whole field (found_perm) | partial |
| C227 | The table of an exhaustive exploration grows with the number of configurations | Explore.buildRows, fillRow | induction over the lists: lengths of the rows; a product is 1 iff its factors are | partial |
| C228 | A later simulation leaves the results of an earlier one | Monitor (csv thread), Simulations | what a csv thread does not touch, by induction over its messages; the list of plots only grows, by induction over the calls; C70_files_partial for any files before | partial |
| C229 | The results of a genetic search can be read from its csv file | CsvText (decimal digits, escapes of {:?}, parse), on Frame and Search | digits by strong induction; lengths for the texts; the escapes are free of prefixes; the file with C98_roundtrip and C147_explore_row | partial |
| C230 | The exchange of lengths keeps the rules of MPI and ends | Exchange: the loop of message_exchange call by call (post, send, wait), any interleaving | invariant on messages; the smallest awaited rank for progress; a measure for the number of turns; pairs that go hand in hand for the good order | partial |
| C231 | A model moved from Field2D to the distributed field goes through the same agents | Spec/OneField: the model of C225 on a Field2D | the scan with a second filter; the rounds of C225 are those of the field (fieldRun_rounds) | partial |
| C232 | Every plot has a tab in the terminal | Model/Tabs: the page of the selected tab, on Model/Monitor and Model/Charts | the titles only grow at the end and stay distinct, by induction on the events; the chart by the lemma of C155 | partial |
| C233 | Leaving the terminal stops the simulation, and only that is reported as an interruption | Model/Interrupt: Model/Driver with a key in every round of the terminal loop, and a record of what the simulation thread does | induction on steps and repetitions with the invariant that the terminal, once gone, stays gone | partial |
| C234 | A plot is there in every repetition and shows the points of that repetition | Model/Plots: the calls that precede the end of a repetition, with and without the terminal, on Model/Monitor | by C69 and induction on the calls and repetitions | partial |
| C235 | The csv file of a plot has a line for each of its points | Model/CsvBytes: the csv thread with files of characters and writers with position and buffer; the text of a record is a parameter | by induction on repetitions and points; Spec/CsvBytes says what the last of several writes leaves | partial |
| C236 | The same seed gives the same random network | Model/NetworkSeed: the seeded calls of both networks with the state of the generator; StdRng and choose_multiple_weighted are parameters | the states of generator and weights are a function of the arguments, which gives one drawing function for all networks; then C51, C212 and the simulation of ParNetwork | partial |
| C237 | The bayesian search evaluates the sample with the highest expected improvement | Model/Improvement: expected_improvement and acquisition_function on real numbers; the gaussian process, cdf and pdf are parameters | the positive part of a normal variable is integrated with Mathlib (Gaussian measure, fundamental theorem of calculus on a half line); the loop over the scores by induction | partial |
| C238 | A random empty bag is drawn fairly | getRandomEmptyBag of the six models as used by C24, C74 and C108; the draws are counted: indexes below the number of empty bags, or all sequences of k locations (`sequences`) | dense: the list of empty bags has no repetitions, so exactly one index gives each; sparse: induction over the draws gives n * favourable + (N-n)^k = N^k, and the geometric term vanishes | partial |
| C239 | A call on a shared map is answered as of one moment | Model/DBDashThreads: the loop over the shards with steps of other threads between any two locks (`visit`); `len`, `is_empty`, `w_keys`, `clear`, `apply_to_all_values_write`. Spec/Moments: a plain map going through changes | invariant of the loop: shard j is seen as it is after the changes made before its lock; sizes change by at most one per step, so every size between first and last is met | partial |
| C240 | The blocks of the distributed field are of nearly equal size | createTree, subtrees, passes and split of Model/KdTree, as for C57 | invariant of the rounds: after k rounds all boxes have the size of round k, in the last round some have that of round k + 1; the number of the larger ones follows from the sum of the areas | proved |
| C241 | Being neighbours is mutual | getNeighborsWithinDistance, getNeighborsWithinRelaxDistance, window and checkCircle of Model/Field2D | along one axis the cell c' is searched from c exactly if c is searched from c', the wrapped windows of plain fields included; the exact search is the window, the distance and a corner within reach; two witnesses | partial |
| C242 | Distances in a field form a metric | distSq, diff, toroidalDistance of Model/Torus; dist, toroidalDist of Model/SingleField | differences that agree up to whole turns have equal length; minimality along each axis gives the triangle inequality there, Minkowski's inequality in the plane gives it for the distance; computed witnesses in single precision | partial |
| C243 | The degrees of a network add up to its edges | Net, exec, run, addEdge, removeEdge, removeEdgesOf, getEdges of Model/Network | sum of the lengths of the lists of ids 0…n-1 as an invariant of histories; every removal takes out as many entries as edges it answers, twice in an undirected symmetric network | partial |
| C244 | The neighbours of an object do not depend on where in the field they are | run, new, searchCells, window, scan, keepExact of Model/Field2D; distSq, checkCircle of Model/Torus | the cells seen from a cell depend on the difference of the two only, also where a plain field is searched around its border; distances and corners move along; computed witnesses | partial |
| C245 | Only the order of times and orderings matters | World.run, step, popDue, runDue, Priority.cmp of Model/Schedule; single of Model/Single | every function of the schedule commutes with the replacement; the clock is set from the queue before it is used; computed witness in single precision | partial |
| C246 | The order in which agents are put on the schedule does not matter unless they tie | World.exec, steps, popDue, runDue of Model/Schedule | a relation between runs that forgets the numbers is kept by every part of a step; a sorted batch without ties is determined by its members | proved |
| C247 | The unit of length does not matter | run, queries of Model/Field2D and Model/SingleField, single and root of Model/Single | the state of the field in the new unit is the old one with other sizes; rounding and the rounded root commute with powers of two on multiples of 2^-126; computed witnesses | partial |
| C248 | Objects do not influence each other | run and queries of Model/DenseObjectGrid, Model/SparseObjectGrid, Model/Field2D | the run without the other calls goes through the states of the whole run with all bags filtered (the counter of the field is followed separately, so that it does not underflow); computed witnesses | partial |
| C249 | The order of calls within a step does not matter | run and queries of Model/DenseObjectGrid, Model/SparseObjectGrid, Model/Field2D; Spec/Reorder | each call about an object changes one bag; changes for different objects commute up to permutation; states equal up to permutation of bags stay so; computed witnesses for READWRITE | partial |
| C250 | The two axes are treated alike | run and queries of the four grids and Model/Field2D; Spec/Mirror | the specifications by histories (C20, C25, C28, C33) commute with exchanging coordinates; for the field, the mirrored run keeps mirrored contents and the search cells, circle test and distance commute with the exchange; computed witnesses outside | partial |
| C251 | Names of objects and agents do not matter | run and queries of Model/DenseObjectGrid, SparseObjectGrid, Field2D; World.run of Model/Schedule; Spec/Rename | every operation commutes with mapping the renaming over the stored bags and queue entries (simulation by induction on the history); queries commute likewise; computed witness that a confusing renaming is noticed | proved |
| C252 | The description popup is on the screen and centred | centeredRect and popup of Model/Popup; Spec/Popup | the pieces are computed from the assumption on the layout; centring is linear arithmetic on floors | proved |
| C253 | Names of nodes, labels and weights do not influence a network | run, queries, preferentialAttachment of Model/Network; Spec/RenameNetwork | every operation commutes with renaming keys of nodes2id, values of id2nodes and mapping labels and weights of the lists; induction on the history and on the attachment loop | proved |
| C254 | Names of nodes, labels and weights do not influence a hypernetwork | run, queries of Model/HNetwork; Spec/RenameHNetwork | every operation commutes with renaming keys of nodes2id, values of id2nodes and mapping labels and weights; induction on the history | proved |
| C255 | The degrees of a hypernetwork add up to the sizes of its hyperedges | run, getEdges of Model/HNetwork; Spec/HyperDegrees | invariant of the history: ids are positions, every list holds the hyperedges that contain its id, once; double counting over ids and hyperedges | proved |
| C256 | Machine floats: names, other objects and the order of calls do not matter in a continuous field | new, run, queries of Model/MachineField; Spec/MachineAlike | a placing or removing call changes one bag at an index that depends on the position only (object_modify); renaming, filtering and exchanging such changes; induction on the history | proved |
| C257 | The hash function, the number of processors and the names do not influence a model run under the feature parallel | run and queries of Model/ParGrid, ParField2D, ParNetwork, DBDashMap; Spec/Hashes, Spec/HashesNetwork | two maps with different shards are compared by the two functions they stand for; every call preserves that they agree up to the names; the loops over the keys of a map do commuting steps, so that a permutation of the keys gives the same lists | partial |
| C258 | Under the feature parallel objects do not influence each other | run and queries of Model/ParGrid, ParField2D; Spec/ParOthers | the plain maps of the shorter program are those of the longer one restricted to the set, the bags those filtered by the set, up to missing or empty bags; kept by every call but update | partial |
| C259 | Under the feature parallel the order of calls about different objects does not matter | run and queries of Model/ParGrid, ParField2D; Spec/ParReorder | a version of the calls that does not panic acts on four plain maps; calls about different objects commute on the places and, up to the order of objects with different identities, on the bags | partial |
| C260 | The two axes are treated alike under the feature parallel and with machine floats | run and queries of Model/ParGrid, ParField2D, ParMachineField, MachineField; Spec/ParMirror, Spec/MachineMirror | the plain maps of the exchanged program are those of the program with locations exchanged; the loops of the search list the same pairs exchanged, and an overflow at the end of one loop excludes that the other is empty; f32 addition and multiplication commute; without the feature the image of the program in units of cells is exchanged | proved |
| C261 | An individual is judged on fresh runs of its own | computed, judge, savedState, judgeCloud in Model/GeneticRuns with runRep of Model/Driver; the searches of Model/Genetic, GeneticMpi, GeneticAws; Spec/GeneticRuns | FreshRuns determines the list of runs (C68); every row of a search is a row of a generation (C62, C63, C94) | partial |
| C262 | A genetic search that hands on its best individual never gets worse | gaSequential, gaParallel, gaMpi; KeepsBest in Spec/GeneticRuns | induction over the generations (Evolves of C62): the handed-on individual has a row with the same fitness, or the evaluation stopped at a good row, and a good row is at least as good as one that is not; distributed: C63 | proved |
| C263 | Machine floats: being neighbours is mutual | searches of Model/MachineField, ParMachineField; Spec/MutualMachine | a cell is visited from another exactly if it is seen along both axes (Field2D.seen of C241), which is symmetric; the computed distance is symmetric since rounding is odd; witnesses by evaluation in the kernel | partial |
| C264 | Machine floats: names of agents, the order of scheduling and the sizes of times and orderings do not matter | Model/MachineSchedule; Spec/MachineSame | renaming and retiming commute with candidates, peek, pop and the pop loop; without NaN the schedule is the one of C246 over a linear order on f32 (steps_eq); witness by evaluation in the kernel | partial |
| C265 | Parts of a network without edges between them do not influence each other | Model/Network; Spec/NetworkParts | simulation between the network and the network of the part alone: the ids of the part are the ranks among the part's nodes, lists correspond through that map; preserved by every call; witnesses by evaluation | partial |
| C266 | Agents that only watch do not disturb a simulation | Model/Schedule, Model/MachineSchedule; Spec/Watchers | simulation relation between the two schedules: other agents pending are permutations of each other up to ids; a batch without its watchers is the sorted batch of the other simulation; witnesses by evaluation | partial |
| C267 | A search within a larger distance finds more | Model/Field2D, Model/MachineField, Model/ParMachineField, Model/KdTree | monotonicity of rounding, division, floor and the saturating cast; windows of cells are sublists of each other; the verdict of the circle on a cell can only change from outside to partly to inside; witnesses by evaluation | partial |
| C268 | Parts of a hypernetwork without hyperedges between them do not influence each other | Model/HNetwork; Spec/HyperParts | simulation between the hypernetwork and the one of the part alone: the ids of the part are the ranks among the part's nodes, lists of hyperedges correspond through that map; removal panics in both or in neither; for the converse both parts are followed at once; witnesses by evaluation | partial |
| C269 | Taking back a call leaves everything as it was | Model/Schedule, DenseObjectGrid, SparseObjectGrid, Field2D, MachineField, KdTree, Network, HNetwork | direct computation with the two calls on an arbitrary state; for hyperedges by induction on the nodes of the hyperedge; witnesses by evaluation | partial |
| C270 | In an undirected network it does not matter which end of an edge is named first | Model/Network, Model/ParNetwork | networks with the same node tables and the same list under each key are indistinguishable, shown call by call; swapping the ends keeps to this relation; with the feature parallel through C116 | partial |
| C271 | Only the order of fitnesses and costs decides what a search finds | Model/Genetic, Model/GeneticMpi, Model/GeneticAws, Model/GeneticAwsLoop, Model/Search | simulation: each function of the searches commutes with changing the fitnesses; by induction on the rounds; witnesses by evaluation | partial |
| C272 | Making a call a second time changes nothing | Model/DenseNumberGrid, Model/SparseNumberGrid, Model/DenseObjectGrid, Model/SparseObjectGrid, Model/Field2D, Model/MachineField, Model/DBDashMap, Model/Schedule, Model/Network, Model/HNetwork | the call is idempotent on lists and maps; for the hypernetwork by the invariant that no node lists a hyperedge twice; witnesses by evaluation | partial |
| C273 | Influence travels at most as far as agents look and move | Model/Field2D, Model/DenseObjectGrid, Model/SparseObjectGrid, Model/ParGrid, Model/ParField2D, Model/Schedule, Model/ParSchedule | the simulation computes synchronous rounds (C141–C143); in a round an agent's view of the population equals its view of the part within its reach (C37, C248), by the triangle inequality (C242) and induction on the number of steps; witness by evaluation | partial |
| C274 | Influence on a network passes at most one edge per step | Model/SyncNodes, Model/SyncHyper, Model/Network, Model/ParNetwork, Model/HNetwork, Model/Schedule, Model/ParSchedule | the simulation computes rounds on the graph (C213, C216); a node's view depends only on its own edges and the records of its neighbours; induction on the number of steps along Away, the relation of being reachable in so many steps | proved |
| C275 | A turned, mirrored or shifted world goes through the turned, mirrored or shifted steps | Model/Field2D, Model/DenseObjectGrid, Model/SparseObjectGrid, Model/ParGrid, Model/ParField2D, Model/Schedule, Model/ParSchedule | the simulation computes synchronous rounds (C141–C143); a round of the image is the image of the round, since the view of the image of an agent is the image of its view (C247, C250, C251 for fields); witness by evaluation | partial |
| C276 | The order in which the nodes and edges of a network are added does not matter | Model/Network, Model/ParNetwork, Model/HNetwork, Model/Schedule, Model/ParSchedule | the simulation computes synchronous rounds on the graph (C213, C216); renumbering permutes the neighbours of a node, so a round of the renumbered network is the renumbered round; induction on the number of steps | proved |
| C277 | Away from the border neither the size of a field nor whether it is a torus matters | Model/Field2D, Model/ParField2D, Model/Torus, the object grids, Model/Schedule | along each axis the difference the code computes is that of the plane or longer than the radius, as is that of the plane, so every test of a corner and of an object has the outcome it has in a plane without border; the windows are not cut off; simulations by C142 and C143 | proved |
| C278 | An exploration may be split into several | Model/Explore | by C59 and C90 the rows are those of the combinations in order; the combinations of a divided list are a permutation of the combinations of the parts, by induction on the parameters before it | partial |
| C279 | Two models on one schedule do not disturb each other | Model/Schedule | the model on both states is, seen from either state, that model with the agents of the other as watchers; then C266 on both sides | partial |
| C280 | A longer run begins like a shorter one | Model/Genetic, Model/GeneticMpi, Model/GeneticAwsLoop, Model/Search, Model/Driver | induction on the rounds: the limit is looked at only at the beginning of a round, so the rounds are the same until the smaller limit is met; rows are only added | partial |
| C281 | A parameter with one value may be fixed in the model, and the parameters may be listed in another order | Model/Explore | the combinations of lists with a list of one value inserted are those of the other lists with the value inserted, by induction on the parameters before it; the rows of an exploration depend on the list of configurations only | proved |
| C282 | An exploration of more configurations has the outcomes of an exploration of fewer | Model/Explore | the combinations of fewer values are a sublist of those of more, by induction; each value is marked with its place so that the matched configurations are all different, hence a part of the combinations, and the marks are dropped again | proved |
| C283 | What is scheduled for later does not influence the steps before | Model/Schedule | a late agent is not popped as long as another one is due before it, so the simulation is that in which late agents do nothing; those are watchers, and C266 applies | partial |
| C284 | The order of agents whose actions may be exchanged does not matter | Model/Schedule, Model/ParallelSchedule | the loop over the agents is a list of turns; exchanging neighbours changes neither the state nor what is scheduled again, so no permutation does; the heap and the workers only choose the permutation | proved |

Not expressible here: rendering (pixels drawn by Bevy or the terminal), wall-clock speed, real
network transport, and statistical quality of random draws. These are not claimed. Rounding of `f32` in the
continuous field is the subject of C171 to C174; elsewhere positions are exact rationals.

## Outcome

For each property, what the theorems say; for the partial ones what fails and why.

* **C01** (proved). Full statement, for every reachable world, user code and heap tie-breaking.
* **C02** (proved). Full statement.
* **C03** (proved). Full statement, as a list of turns and entry by entry.
* **C04** (proved). Clock equals the batch time; monotone along any history that does not schedule into the past.
* **C05** (proved). Exact list of runs of a never-stopping repeating agent after any number of steps; requires that +1 is strict (see C12 for where single precision breaks this).
* **C06** (proved). Step counter, hook sequence over any history, order inside one step.
* **C07** (proved). Full statement (sequential variant; the parallel variant ends the process, see C14).
* **C08** (proved). Ids are 0,1,2,... unconditionally; success under the stated condition on schedule_once ids.
* **C09** (proved). Exactness and non-execution in later steps.
* **C10** (partial). False of the code: an id that is already pending keeps the old agent and only moves it. Negation with witness proved; exact behaviour proved for fresh and for pending ids.
* **C11** (proved). Full run equality under distinct priorities; batch equality as a multiset always.
* **C12** (partial). False of the code at 2^24 time units (single precision). Proved: strict below 2^24, stall at 2^24, all times from 2^25 on stall, and a stalled agent starves later agents. C12_advances_iff_partial, on machine floats: exactly where times of either sign advance.
* **C13** (proved). Batches partition the events; each event once under every interleaving; interleaving-independent reschedule for independent agents. For every world reached by calls and parallel steps.
* **C14** (partial). False of the code: the parallel step pops every event regardless of its time. Negation proved; agreement proved when all pending agents have the same time; thread count 0 panics. For every world reached by calls and parallel steps.
* **C15** (proved). Full statement over every call of the map (also merge, apply_*), any hash function and CPU count; independence corollary excludes apply_to_all_keys, whose result depends on the visiting order. insert's return value is treated in C19.
* **C16** (proved). Full statement on a 64-bit machine.
* **C17** (proved). Full statement.
* **C18** (partial). False of the code: update never deletes from the read side. Negation with witness; exact effect of update proved.
* **C19** (partial). False of the code: insert removes the key first and always returns None. Negation with witness; the effect of insert proved.
* **C20** (proved). Full statement, in terms of what was written last; update and lazy_update are the same function.
* **C21** (partial). False of the code: an index outside the grid but inside the vector is accepted and aliases another cell. Proved: no aliasing in range, exact set of rejected locations, witness.
* **C22** (proved). Full statement for both buffers (emptiness is a query on the published buffer only).
* **C23** (proved). Full statement, cell by cell.
* **C24** (partial). False of the sparse grids: rejection sampling never returns on a full grid, for any draws, and panics on an empty one. Proved: full statement for both dense grids; on sparse grids any returned cell is in range and empty and the search ends as soon as an empty cell is drawn.
* **C25** (proved). Full statement; locations are not range checked.
* **C26** (proved). Full statement, every iteration order.
* **C27** (partial). False of the code for apply_to_all_values with WRITE and READWRITE. Witnesses proved; agreement proved for all other calls, and for READWRITE when every written cell is also published.
* **C28** (proved). Full statement for histories without update (see C30) and apply_to_all_values (C32).
* **C29** (proved). Full statement for both buffers, also on the storage left by update.
* **C30** (partial). False of the code: update inserts a new bag per cell instead of replacing, keeps the write buffer, and makes apply_to_all_values panic. Proved: reads right after any number of updates are what was written; growth n+1 bags per cell; panic; witnesses.
* **C31** (partial). False of DenseGrid2D: the location is computed row-major from a column-major index; right iff one dimension is 1, transposed on squares. Proved for SparseGrid2D.
* **C32** (partial). False of the code: DenseGrid2D READWRITE keeps the object on None, WRITE does not remove it from the write bag, SparseGrid2D panics on None and READWRITE keeps only the last object of a bag. Exact effect of each option proved.
* **C33** (proved). Full statement; no stored bag is empty.
* **C34** (proved). Full statement, every iteration order, both buffers.
* **C35** (proved). Full statement over all histories; positions are exact rationals.
* **C36** (proved). Full statement, positions on the upper borders included.
* **C37** (partial). False on a torus for large distances: a cell whose corners are all within the distance is taken whole although it holds farther points. Witness proved. Proved in full off the torus, and on it for 2 dist < size - d; for every distance, on a torus too, what is returned lies within dist + 3d/4 (C37_within_a_cell_partial); objects are assumed placed at the location they carry.
* **C38** (partial). False of the code in four ways, each with a proved witness: search radius rounded down, circle inside one cell, no wrap-around on a torus (the clamping is applied to tori and the wrapping to plain fields), objects on the upper border. Proved: exact sufficient condition and a guaranteed radius dist - 3d/2.
* **C39** (partial). False off the torus when the searched square is larger than the field: then the relaxed search around any position inside returns some object twice (C39_twice_partial), and from the distance that spans the field on an object finds itself twice with the exact search too (C39_itself_twice_partial); concrete witness in C39_wrapped_search_negation_partial. Proved on a torus for every distance, and otherwise when it fits (C39_neighbors_once_partial): for the relaxed search every case is settled.
* **C40** (proved). Full statement for every state, and no panic on reachable fields.
* **C41** (proved). Full statement, with uniqueness and minimality; antisymmetry holds also at the tie.
* **C42** (partial). False of the code: negative multiples of size give size. Witness proved; exact result proved for every n.
* **C43** (proved). Full statement.
* **C44** (proved). Full statement for the sequential Network: queries after a publication, before the first one, and what a publication shows.
* **C45** (partial). False of the code for parallel edges (remove_edge takes one entry from u's list and all from v's) and for remove_node with unpublished neighbours: witnesses; C45_remove_edge_exactly_partial: remove_edge keeps the symmetry exactly if there is at most one edge. Proved for histories whose remove_edge calls meet at most one edge between the nodes; with remove_node when it can see all edges.
* **C46** (partial). False: ids are the current number of nodes, so an add after a removal, or adding a node twice, makes two nodes share an id (witnesses). Exact: an add keeps unique ids unique iff the node is absent and its id free, or it has that id already (C46_add_node_exactly_partial). Proved, with contiguity, when nodes are only added, once each; and for removals if each add finds its id free. HNetwork: same failure (witness) and same restricted proof.
* **C47** (proved). Full statement, on the adjacency lists and as get_edges shows it.
* **C48** (partial). False: directed, two parallel edges k->u, remove_node(u) leaves a dangling edge and get_edge panics (witness). Proved for histories that remove nodes when all edges can be found; C48_remove_node_exactly_partial: this condition is exactly when remove_node keeps the edges in order, directed and undirected.
* **C49** (partial). Exact effect proved for directed and undirected networks with any number of parallel edges, and when there is none (in undirected ones exactly one edge goes if and only if there is exactly one); false for undirected parallel edges, unpublished nodes, after remove_all_edges and after remove_node in the same step (witnesses).
* **C50** (partial). Exact effect proved when nodes are published, have lists and all edges can be found; four exceptions with witnesses (dangling edge, unpublished node ignored, two panics).
* **C51** (proved). Full statement for every choice function that returns distinct positions when weights are positive, which is also shown to be the case; the weights themselves (degrees) influence only which positions. Hypothesis: the node set lists the nodes of the network, whose ids are distinct.
* **C52** (partial). False: get_edges answers None for every node and remove_edge, remove_node, remove_incoming/outgoing_edges panic. What holds: no edges, get_edge finds none, ids and objects unchanged, add_edge works.
* **C53** (partial). Membership half proved for every history. The other half is false: add_edge stops at the first id that already lists the hyperedge, so a repeated node in the slice leaves members without it (witness). Proved for histories without repeated nodes whose slices have distinct ids.
* **C54** (proved). Full statement, written and published lists.
* **C55** (partial). False for slices with a repeated node: the answer is false although the hyperedge was (partly) added (witness). In general the answer is false for every slice with a repeated node. Exact effect and answer proved for every slice in every network (the ids up to the first repeated or already listing one get the hyperedge); simpler form for slices with distinct ids in a network with complete lists; absent nodes and the empty slice proved.
* **C56** (partial). False: hyperedges added since the last update survive, remove_object panics after remove_all_edges, and an add_node after it reuses an id in use (witnesses). Exact effect proved when the published list of the node is the current one and its members have lists.
* **C57** (proved). Full statement, exact rationals for f32, positive field sizes.
* **C58** (partial). False for corners: an agent there is offered to the first of its borders only (witness; C58_exactly_partial: all borders get it exactly if there is at most one within the distance). Proved: the exact content of each list after any sequence of inserts in the own box.
* **C59** (partial). False for an empty parameter list: division by zero (proved for every exploration with one). Otherwise the full statement, for the sequential and the parallel macro.
* **C60** (partial). False: repetition labels start at 1 in the one and 0 in the other, and explore_sequential! reuses the state of the previous repetition. Proved: the same number of rows, the same configuration labels, and the states of explore_parallel!.
* **C61** (partial). False for the labels (index in the share of the process), for no repetitions and no configurations. The rest is proved for every number of processes.
* **C62** (proved). Full statement for the sequential and the parallel macro, for non-empty populations; an empty initial population panics (also proved).
* **C63** (partial). The split and the rows are proved in general. False if the selection changes the size of the population: the blocks keep their old size, individuals are lost or the root panics (witnesses); with constant sizes proved for the whole search.
* **C64** (proved). Full statement for at least one function (no function is a division by zero), with the sizes of the lists.
* **C65** (proved). Full statement, with floats including NaN and infinities; candidates that cost f32::MAX or more, or NaN, are never chosen (as the statement says).
* **C66** (partial). False if no value exceeds f64::MIN (an objective of minus infinity): the returned value belongs to no point (witness); no initial points panic. Otherwise the full statement. The acquisition picks a maximal score under the same condition (witness otherwise). The gaussian process is a parameter.
* **C67** (partial). False for n = 0 (no value, although the macro computes max(n,1)), for equal bounds at the top of the type (overflow) and for huge equal float bounds (panic). Otherwise proved for integer and float types.
* **C68** (proved). Full statement for the loop shared by simulate! (without terminal), simulate_old! and simulate_explore!; the state carries over between repetitions as in the code.
* **C69** (partial). False for the bounds if infinite values are plotted (witness). Proved: series, labels and csv messages for every sequence of calls that does not panic; bounds for finite values.
* **C70** (partial). False in four ways (witnesses): points plotted in init go to no file or to that of the previous repetition, plots added later have no file, names that differ in / and - share a file. Otherwise proved for any number of repetitions.
* **C71** (proved). Full statement, with the stored log file.
* **C72** (partial). False: before the first log Up twice panics, and a tab added between right and left gives another tab (witnesses). From the first log on, proved for every sequence of events.
* **C73** (partial). False: executions of different length are reported equal if one is a prefix of the other, or panic (witnesses). Proved: what a report of equality guarantees, when it does not panic, and that a deterministic model is reported reproducible.
* **C74** (partial). False of the code: when the sizes are not multiples of the discretization a position outside the field can be returned (witness). The rest is proved, with the bound size + d.
* **C75** (proved). Full statement for both buffers.
* **C76** (proved). Full statement; added after a mutation of get_all_events survived.
* **C77** (proved). Full statement, relational over arbitrary hooks that make API calls; hooks that assign the schedule's public fields are outside the model.
* **C78** (proved). Under the stated history restrictions.
* **C79** (partial). Exact effect proved for directed and undirected networks with any number of parallel edges, nodes published: one edge per other node is removed, so all of them exactly if there are no parallel ones. False in general: the documented example removes nothing because the nodes are not published; one of two parallel edges survives.
* **C80** (partial). False: nodes2id is not double buffered, so get_id shows an added node and get_edges forgets a removed one before update (witnesses). get_object is isolated always, the other reads under writes that do not add or remove nodes; publication proved.
* **C81** (proved). Full statement for nodes that have lists; the panic after remove_all_edges is recorded. Independence of order for get_edge needs complete published lists (see C53).
* **C82** (proved). Full statement; a theorem shows that another id in create_tree breaks it. f32 corner comparison is exact here; rounding is not modelled.
* **C83** (proved). Mutual neighbour lists, progress of the pairwise rendezvous in every reachable state, and delivery without regions. MPI itself is modelled as blocking rendezvous and reliable transfer; that the lengths are sent in ready mode is C230.
* **C84** (partial). Proved for 2, 4, 8, ... and for 6, 24, 96, ... processes, and false for every other number (C84_exactly_partial: an equivalence, for halo distances less than half the size of the blocks); a witness for 3. The distance is taken per axis.
* **C85** (proved). Full statement; with it a soundness theorem for distances less than half the field.
* **C86** (partial). False: remove_object_location leaves the halo lists alone, so the agent is sent although it is in no bag (witness). Proved for all programs of insertions and removals in the own block: every process receives exactly what it would receive without the removals (C86_as_if_not_removed_partial); the property holds for agents that were farther than the halo distance from all borders (C86_interior_partial).
* **C87** (partial). False: after a repetition that ends by end_condition the interface thread may be gone and the remaining repetitions are skipped, depending on the interleaving (witness). Proved for models that never end early and for one repetition.
* **C88** (partial). False: MPI_Finalize is inside the loop over the repetitions, and processes that end at different steps wait for each other for ever. Proved for one repetition in which all processes end at the same step.
* **C89** (partial). False: the widths of the report are computed by unsigned subtractions that underflow (panic in debug builds, wrap in release). Proved: exactly when they do not.
* **C90** (partial). False: a list shorter than the last one panics (proved in general), longer ones are truncated to the last one silently (proved in general). Proved for lists of one length; for all others the exact result, and that the exploration panics exactly if some list is shorter than the last.
* **C91** (partial). False: the printed best starts from a made-up row of fitness 1000, which a maximisation keeps, and a real fitness of exactly 1000 panics (witnesses). Proved: the row is that of the best individual or the made-up one.
* **C92** (partial). False: more processes than individuals panic, and if the selection leaves at most one individual only the root process leaves the loop (both proved).
* **C93** (partial). False: the search starts from fitness 0, so if no fitness is positive it reports 0 and no individual (proved). Otherwise the report is right: proved for each generation and, in C93_search_partial, for the whole search.
* **C94** (partial). False with more functions than runs: a function without work sends a message that is no JSON, and the search panics (proved in general); it also panics if a fitness is NaN or infinite (C94_nan_negation_partial). Otherwise the full statement, for every order of arrival.
* **C95** (proved). Full statement, for every rounding that is monotone and keeps the bounds.
* **C96** (partial). False: the runs are chained on one state, and the state returned is the one left by the last run (witness). Proved: what is computed, and that it is the stated cost if a second run repeats the first.
* **C97** (partial). False: the columns are taken by position, the names are ignored (witness). Proved: the columns by position for well-formed files, and a panic otherwise.
* **C98** (proved). Full statement, given that quoting is inverse in the csv crate and the parsers understand what to_string writes.
* **C99** (partial). False: without the terminal nothing sets the csv channel and plot! with csv: true panics (proved for every existing plot). Proved with the terminal, and without csv.
* **C100** (partial). False from the 101st sample on: the newest lies beyond the window (proved). Proved: which samples are held, for every number of ticks.
* **C101** (partial). False for 0 repetitions (proved). Otherwise proved.
* **C102** (proved). Proved for every program, processor count and hash function.
* **C103** (partial). False with update and with apply_to_all_values (witnesses). Proved for programs of set and lazy_update, which is what the engine itself does: sparse everywhere, dense inside the grid.
* **C104** (partial). False: an object placed twice stays in its first bag (witnesses, also across update). Proved: what every program shows, the whole property where each object is placed at most once between two lazy updates, and that objects are only in the bag of their location exactly if none has been placed at two locations (C104_ghosts_exactly_partial).
* **C105** (partial). False: it panics right after a lazy_update (proved for every program), and an object moved and removed stays in its new bag (witness). Proved: the exact condition of the panic and the exact effect in every reachable grid; the property for objects that did not move.
* **C106** (partial). False: the bags keep the old objects (witness). Proved: it never panics, the three options do the same, the exact effect on locations and on get for closures that keep the identity.
* **C107** (partial). False: two objects placed at once at a location without a bag, one is lost (witness interleaving). Proved for every interleaving: locations are right, nothing is invented, published data do not change, no object is lost where the bag exists or one object only goes.
* **C108** (partial). False after a removal: an emptied bag is not listed (witness). Proved for every program of placements and updates; in every reachable grid all listed cells are empty, and the empty ones left out are exactly those with a bag without objects (C108_listed_exactly_partial).
* **C109** (partial). False with update, which publishes with the feature and does nothing without it (witness), and for searches with nothing published (C110). Proved for all programs of placements and lazy_update, answers equal element by element.
* **C110** (partial). False: with nothing published the search divides by zero and panics; proved that it panics exactly then, after every program.
* **C111** (proved). Full statement.
* **C112** (proved). Full statement.
* **C113** (partial). False: an object placed twice before a lazy_update is in both bags (or twice in one), and update leaves ghosts (witnesses). Proved where no object was placed twice in the published period and update is not used; without update this condition is exact (C113_one_bag_exactly_partial).
* **C114** (partial). False: two objects placed at once in a square without a bag, one is lost (witness interleaving). Proved for every reachable field and interleaving: locations, published data, exact contents of bags that exist or receive one object, and for the others that nothing is invented and the bag is not empty.
* **C115** (partial). False: get_location_unbuffered panics for an object not placed since the latest lazy_update (proved: exactly then). Everything else proved; get_unbuffered answers an object of that identity in the bag.
* **C116** (partial). False after remove_all_edges, after remove_node, and for remove_edge between unpublished nodes (witnesses). Proved, with both runs free of panics, for all histories of new nodes and edges, replaced nodes, publications, and edges removed between published nodes; returned lists equal up to order.
* **C117** (partial). False: remove_node is visible at once and makes get_edge panic (witness). Proved for all histories in which nodes are only added; get_object for all histories; get_edges for all histories while the node keeps its id; and that nothing is found before the first publication.
* **C118** (proved). Full statement (removed nodes therefore stay visible, C120).
* **C119** (partial). False for every history: the publication shows every list as before, and remove_edge between present nodes panics. Proved: no list remains written, and a later edge replaces the old list of its source.
* **C120** (partial). False: the node itself stays visible under its id, and after remove_all_edges the call panics (witnesses). Proved for histories as in C116, followed by a publication, and nodes whose edges it can find: edges and lists exactly as stated.
* **C121** (partial). False after a removal: two nodes with the same id, and a new node with the edges of a removed one (witnesses). Exact condition on each add (C121_add_node_exactly_partial). Proved where nodes are only added, once each: ids 0, 1, 2, ... and new nodes without edges.
* **C122** (partial). False: get_edge panics after remove_node before the publication; remove_all_edges leaves one-sided edges (witnesses). Proved where nodes are only added; both ends for histories as in C116 with at most one edge between nodes when removing.
* **C123** (partial). False after reused ids: a node added after a removal can get the id of another, then add_prob_edge can panic or write two edges to one node (witnesses). Proved, with exact counts and for every random choice, for histories that add each node once and add none after a removal; the chosen nodes may include u itself (witness).
* **C124** (partial). False: in a directed network the published edges of the second node stay (witness; in every directed network, C124_second_node_partial). Proved for all histories in undirected networks, and in directed ones where that node shows no edges, which is therefore exact.
* **C125** (proved). Full statement; no key is pressed. A send that fails because the terminal has closed ends the simulation thread in the model, what it still writes then is not read.
* **C126** (partial). False: marking the slot consumed can wipe out what was put in it since it was read; witness interleavings after which the last step, or the last repetition, is never shown. Proved for all interleavings in which no slot is written between being read and being marked, where no repetition meets its end condition.
* **C127** (partial). False: Quit can be wiped out the same way and the terminal never closes (witness). Proved for all interleavings in which no slot is written between being read and being marked; that it closes only then is proved for all.
* **C128** (proved). Full statement; GPU upload is not modelled.
* **C129** (proved). Full statement for the events tick, Start, Stop, Pause in any order; before_render does nothing, as by default. Locks are not modelled (one thread).
* **C130** (partial). False: the systems never ask end_condition (witness: simulate! ends after 3 steps, the visualization goes on). Proved up to the step where the end condition holds, for simulations whose on_init and end_condition change nothing.
* **C131** (partial). False for agents scheduled after the beginning: sprites are made only at the beginning and by Stop (witness). Proved: the sprites at the beginning; in each frame every sprite is drawn for its agent or hidden, if update puts the sprite at location.
* **C132** (partial). False: visibility is overwritten, and the height gets half a unit more in every frame (witness: an agent that does not move climbs without end). Proved: the rest of the transform is as update leaves it.
* **C133** (partial). False: at the beginning objects are half a unit below instead of above, removed objects stay drawn, new ones are not drawn. Proved for objects of the beginning that still have a location.
* **C134** (partial). False: the line is compared with the locations of the beginning, so nodes that return to them leave their line where it was. Proved when a node is away from its beginning, or both never were. New edges have no line; those of undirected networks have two.
* **C135** (proved). Full statement, over exact rationals instead of f32; the projection of Bevy (viewport origin 0,0, one unit per pixel) is taken as documented.
* **C136** (proved). Full statement; load is a parameter that may give a different handle on every call.
* **C137** (proved). Full statement. That events may panic before the first log is C72.
* **C138** (proved). Full statement, exact arithmetic (sqrt is an arbitrary function).
* **C139** (proved). Full statement, exact arithmetic.
* **C140** (partial). False: the vertical coordinate is wrapped with the width; in a world wider than high a bird that leaves at the bottom ends above the top, where the field panics or shows it in another column (witnesses). In every world wider than high a bird is where it should be exactly if it does not cross the lower or upper border (C140_flat_world_exactly_partial). For width <= height it is part of C138.
* **C141** (proved). Full statement over the laws of a field; the state consists of the field only.
* **C142** (proved). Full statement.
* **C143** (proved). Full statement, exact arithmetic.
* **C144** (proved). Full statement, exact arithmetic for Field2D.
* **C145** (partial). False: ids have gaps after a removal and printing panics then (witness). Proved: exactly the matrix where nodes are only added; with removals the matrix if the ids are 0, 1, …, a panic otherwise.
* **C146** (partial). False for NaN: the order of priorities is not transitive and disagrees with == (witnesses). Proved for all other times, with infinities; AgentImpl and Int2D in full; Real2D iff no coordinate is NaN.
* **C147** (proved). Full statement; the distinctness of names is what the compiler requires of a struct.
* **C148** (proved). Full statement.
* **C149** (partial). False: plots whose names differ only in / and - share a file (witness), and series i and i + 6 look alike (proved iff, witness). The rest is proved for names with different files.
* **C150** (proved). Full statement.
* **C151** (proved). Full statement.
* **C152** (proved). Full statement; "never decreases" under the hypotheses that agents' times do not move backwards and hooks schedule nothing in the past.
* **C153** (proved). Full statement.
* **C154** (partial). False: the process exits (negation proved for every state with nothing pending; no program whose agents all stop completes two steps).
* **C155** (partial). False: if all y are negative the highest points are outside the chart, since a fifth of the (negative) maximum is added to the bound; the label at the right end of the x axis is ten too small (both proved). Proved where a point is not below zero, for every rounding.
* **C156** (partial). False from nine series on (witness): yellow is twice in the list. Proved: exactly which series look alike; the first eight differ.
* **C157** (partial). False for values of twelve digits and for the thousandth repetition of a slow model (proved). Proved for the rest.
* **C158** (partial). False: the padding has no effect and a body with a line break looks like several logs (witnesses). Proved: the list with colours; type and body can be read from each line; the file can be read back if no body has a line break.
* **C159** (proved). Full statement; the user's on_init calls render once for each field, as the comments ask for.
* **C160** (proved). In exact arithmetic (real numbers and functions); the rounding of f32 is not modelled.
* **C161** (proved). C161_field_calls_finish: every run of any threads is finite, can always go on to the end and ends with every thread done and no mutex held. Closures of the options WRITE and READWRITE of number grids are asked to use the written side of fields in one order (see C163); all other closures may do anything.
* **C162** (proved). C162_parallel_steps_finish: the same for whole simulations, with thread::scope as start and end events of the threads. User code is any list of field calls, scheduling and macros; Clone of agents is taken to lock nothing.
* **C163** (partial). False: with WRITE and READWRITE the closure runs while the shard of its key is locked. A closure that reads or writes the new value of a key in that shard of the same grid never returns, in every interleaving (C163_closure_on_own_shard_hangs_partial), and two threads that fill two grids from each other can hang (C163_two_grids_can_hang_partial). Closures that use only fields later in some order, and all closures of READ, object grids and iteration, are safe: C161_field_calls_finish (C161).
* **C164** (proved). C164_terminal_finishes: all five threads with their mutexes, the channel to the CSV thread, spawn and join. The list of iterations of the terminal thread is finite, that is, the user leaves it.
* **C165** (partial). False: log! evaluates its message while LOGS is locked, plot! and addplot! everything while DATA is locked. An argument that uses the same macro (or plot! in addplot! and vice versa) never returns, in every interleaving (C165_nested_macros_hang_partial). C165_macros_finish_partial: arguments that make any calls on fields never hang.
* **C166** (proved). C166_systems_finish: for any set of systems that is pairwise free of conflicts over Bevy's resources. C166_simulation_and_renderer_could_hang shows that without this rule of Bevy the opposite order in which simulation_system and renderer_system lock state and schedule could hang.
* **C167** (proved). C167_no_borrow_error: functions as lists of borrow, borrow_mut and release actions on the RefCells of a field; the only hypothesis is that a closure does not use the field it runs over (C168). The calls of the distributed field (Kdtree) are included.
* **C168** (partial). False. C168_nested_call_panics_iff_partial gives, for every iteration and every function of a grid, whether it panics (the table Clash of the specification, an equivalence). C168_neighbours_while_visiting_partial: get_neighbors_within_distance is fine while the agents are visited, get_neighbors_within_relax_distance panics although it only reads.
* **C169** (proved). C169_birds_keep_speed and C169_parallel_birds_keep_speed, for any square root with relative error below 1; positions and headings are exact rationals.
* **C170** (partial). False for the headings: the sum is divided by the number of birds twice (C170_heading_not_mean_partial: between two birds with heading (1,0) the contribution is (1/2,0)). C170_steering_partial: everything else holds, with the heading weighted by one over the number of birds; C170_alone_partial: a bird that sees nothing goes on. Random numbers (1/2, 1/2) give 0/0 in the code, 0 in the model.
* **C171** (partial). False on every torus: all val with -dim/2^26 <= val < 0 are sent to dim itself (C171_lands_on_dim_partial, for every single dim > 0; C171_below_dim_negation_partial). Proved: a single in [0, dim], within one rounding of the representative (C171_rounded_partial); exact and below dim for val >= 0 (C171_nonnegative_partial).
* **C172** (proved). C172_antisymmetric, C172_half_turn, C172_shortest_way; for every rounding to nearest. C172_ieee_rounding: the rounding and the square root used in C171-C175 meet the IEEE rules (nearest, ties to even, square root correctly rounded). The root of a single is itself a single (rootLands).
* **C173** (partial). False of large fields: the number of bags is computed as a single, 5000 by 5000 cells get 25010000 bags for 25010001 cells and the far corner panics (C173_corner_panics_partial). False of exact squares: 0.7f32 is below 7 * 0.1f32 but in cell 7 (C173_rounded_square_partial). Proved for fields of at most 2^24 cells, with squares up to a relative error of 2^-24 (C173_history_partial).
* **C174** (partial). False: an object farther than the distance is returned when the computed distance is rounded down (C174_too_far_negation_partial); an agent wrapped across the seam onto dim is not found from its own location (C174_seam_negation_partial); the gaps of C38 remain. Proved, with an allowance of (dis + w + h + d)/2^18: only published objects within dis + allowance (C174_sound_partial; on a torus for distances below half a side less a cell), every one within dis - 3d/2 - allowance and clear of the upper border (C174_guaranteed_radius_partial), the relaxed search (C174_relaxed_partial).
* **C175** (proved). C175_wrapped_positions.
* **C176** (proved). C176_parallel, C176_every_order, C176_scope_ends, C176_parallel_same; C176_sequential, C176_sequential_same. Panics of the state's hooks (caller's thread), of Clone and panic=abort are not modelled. The world after a panic is pinned: the state is the one the panicking hook left, and the observer saw exactly the hooks up to it.
* **C177** (partial). Holds when simulate! returns (C177_returned_partial) and as soon as the terminal thread has ended without a panic (C177_left_partial). False if the simulation panics (C177_simulation_panics_partial, C177_unusual_partial) or drawing fails (C177_drawing_fails_partial): nothing restores the terminal. C177_returns_partial: runs that return exist from every moment at which the terminal is shown.
* **C178** (partial). Proved for grids of fewer than 2^31 cells (C178_number_grid_partial, C178_object_grid_partial). False for all bigger ones: C178_usable_iff_partial; in release builds cells alias: C178_alias_partial.
* **C179** (partial). Proved for fewer than 2^32 agents (C179_counts_agents_partial). Then a debug build panics (C179_panics_partial) and a release build drops the new agent and moves agent 0 (C179_overwrites_partial).
* **C180** (partial). C180_corners_partial: what the functions return, and that the location is in the cell meant or the one before. C180_unrounded_partial: the claim for discretizations whose multiples are singles. False for 0.9: C180_not_empty_partial, C180_not_there_partial.
* **C181** (partial). C181_numbers_partial: positions that are numbers in the field, both builds (this also discharges the simplifications of C173: no infinity, no saturation and no i32 overflow occurs there). C181_infinite_refused_partial: a debug build refuses infinities. False for NaN in both builds (C181_nan_stored_partial, C181_nan_found_partial) and for minus infinity in release builds with an even number of rows (C181_infinity_stored_partial). C181_arithmetic_partial, C181_conversions_partial: the operations used are those of IEEE 754 (limits at infinities, nearest single otherwise) and the casts of Rust.
* **C182** (partial). C182_sound_partial and C182_guaranteed_radius_partial: distances of at most 2^31 - 2^25 cells, both builds. C182_dividing_line_partial settles every distance: the search answers as with unbounded integers if its ends fit in an i32, and otherwise panics in debug builds and finds nothing in release builds; C182_huge_distance_partial is the case of infinite distances and of 2^31 cells or more outside the first cell.
* **C183** (partial). C183_wrap_partial: numbers. C183_search_nan_partial: the exact search around NaN returns nothing. False for infinities (C183_wrap_infinity_partial: the result is NaN) and for the relaxed search, which takes NaN for 0 (C183_relaxed_nan_partial).
* **C184** (proved). C184_order_matters shows that the arrangement cannot be dropped: the population does depend on it for such rules.
* **C185** (proved). Sequential build; with the feature parallel C191.
* **C186** (partial). C186_flock_stays_inside_partial and C186_parallel_flock_stays_inside_partial (with C186_new_birds_partial for the birds of init): worlds not wider than high (both coordinates are wrapped with the width, C140) in which no bird draws 1/2 twice in one turn. False otherwise: C186_draw_partial (0/0, for every bird, world and neighbourhood), C186_nan_stays_partial, C186_nan_spreads_partial, and a whole run in which the flock is lost, C186_flock_lost_partial.
* **C187** (partial). C187_same_flock_partial, C187_parallel_same_flock_partial: at most three birds, the same numbers in every turn. False for four birds: C187_order_matters_partial.
* **C188** (partial). C188_history_partial: all programs and positions; cells are squares up to 2^30 cells from the origin on either side. False beyond: C188_nan_shown_partial, C188_far_shown_partial, after every program.
* **C189** (partial). C189_same_answers_partial: positions in the field, something published, distances up to 2^30 cells, affordable capacity. False otherwise: C189_outside_partial; also C110, C190.
* **C190** (partial). C190_affordable_partial: every program. False otherwise: C190_infinite_partial (every field with at least one unit of area per object), C190_wraps_partial (finite distances; debug and release differ); C190_asked_partial shows what is asked for in an ordinary field.
* **C191** (proved). C191_parallel_machine_field, C191_steps_complete.
* **C192** (partial). C192_due_partial: every program and hooks that do not pass NaN, infinite times included. False with NaN: C192_nan_first_partial (all pending agents run at once), C192_two_partial (any two agents, any resolution of ties), C192_together_partial (witness).
* **C193** (partial). C193_served_partial: times from -2^24 to 2^24, with a bound for the number of steps. False beyond: C193_starves_partial (wherever adding 1 does nothing), C193_stuck_partial (2^24, -2^24 - 4, infinities), C193_never_partial (witnesses, for every number of steps). All times: C193_reached_partial (an agent gets its turn unless another one would come to a halt before it), C193_waits_iff_partial (among agents that repeat and never stop, exactly those wait for ever before whose time another comes to a halt), C193_stuck_iff_partial (exactly where: the multiples of 4 from 2^24 on and below -2^24).
* **C194** (proved). C194_nobody_lost.
* **C195** (partial). C195_location_partial: fields that can be halved within 24 bits (e.g. integer sides), every rounding to the nearest. False otherwise: C195_gap_partial (seven processes on a field from 0.7 of width 1.2), C195_nan_partial (a NaN coordinate, every field).
* **C196** (partial). C196_layout_partial, C196_neighbors_partial, C196_halo_partial: fields that can be halved within 24 bits. False otherwise: C196_lost_neighbours_partial (25 processes, sides 1.1 at the origin).
* **C197** (proved). C197_blocks, C197_mutual, C197_no_deadlock.
* **C198** (partial). Holds for DenseGrid2D (C198_dense_shows_the_newest_partial) and, for callers who remove the old version first, for SparseGrid2D and Field2D. False for these two otherwise: C198_sparse_shows_the_old_version_partial, C198_field_shows_the_old_version_partial. Exactly: these two show all versions placed since an equal object was removed, so each object is shown once iff none was placed twice since then (C198_sparse_exactly_partial, C198_field_exactly_partial). With the feature parallel the bags of the grids hold newest versions by C104.
* **C199** (partial). False: after a good individual the parallel search evaluates the rest of the generation and may report a better one (C199_good_negation_partial), and it goes on with a selection of one where the sequential search ends (C199_one_left_negation_partial). Proved: if the selection never leaves exactly one, the parallel rows are the sequential rows followed only by rows of the last generation, and without good individuals both agree.
* **C200** (partial). False: a NaN of the very first individual is reported as the best for ever, and a generation that begins with NaN is overlooked (witnesses). Proved: otherwise the best is a number that no individual beats, except individuals of generations that begin with NaN (C200_best_partial).
* **C201** (partial). False: the mutation is applied before the crossover (C201_order_negation_partial) and the selection gets each individual once per repetition, so populations grow by that factor (C201_growth_negation_partial). Proved for every order of arrival: everything else of the statement (C201_search_partial), and that with a limit the search ends without a panic if no population is too small for the functions (C201_ends_partial).
* **C202** (partial). False: the functions write the individual into JSON without escapes. Proved: it comes back exactly if it has no quote, backslash or control character (C202_individuals_partial); witnesses for a changed individual, a lost one and a panic.
* **C203** (partial). False: in every interleaving, once a repetition has been finished the terminal says at most the number of finished ones, never the one that runs (C203_behind_negation_partial); it says 1/n before any step and shows the last repetition as complete until the next has made a step. Proved: the first repetition is shown right, and after a step the step number is one that was made and the progress is in (0,1] (C203_progress_partial).
* **C204** (partial). False: the arguments are evaluated up to six times; a random number gives a point outside the bounds of its chart and another one in the file, a name that changes makes plot! panic (witnesses). Proved for expressions with the same value each time, whatever their effects (C204_steady_partial). C204_order_partial: order and number of evaluations.
* **C205** (proved). Full statement with f64 rounded to 53 bits, ties to even. Assumes of the libraries: Duration::from_secs_f64 takes the nearest nanosecond (Rust 1.63 and later), a slider that is not moved only clamps its value.
* **C206** (partial). False: zero and minus zero are equal and print differently, NaN prints alike and is not equal, agents with the same id are equal and print whether they repeat (witnesses). Proved: grid cells exactly; locations, priorities and scheduled agents print the same if and only if all parts are the same, NaN counted as one; locations without zeros and NaN exactly. The decimal text of a float is a parameter that reads back, begins with a digit and has no space.
* **C207** (partial). False: the size of the window has no effect, the application is the same for all sizes (C207_window_negation_partial), and the defaults of both sizes and of the background are not the documented ones (C207_defaults_negation_partial). Proved: each setting is the one given last or the default of the code, and the other settings have their effect.
* **C208** (partial). False: the conditions on features are about the calling crate, not the library, so that a distributed exploration panics unless the caller has a feature of the same name, and the cloud mode runs nothing. Proved: exactly when the promise is kept (C208_modes_partial).
* **C209** (partial). False: with more processors (past a power of two) the three calls panic on every map, with fewer they skip the last shards (C209_more_processors_partial, C209_fewer_processors_partial, C209_fewer_processors_merge_partial, C209_lost_partial). Proved: unchanged behaviour as long as four times the number, rounded up to a power of two, stays the same (C209_unchanged_partial). Assumed: num_cpus::get() may answer differently at each call, as it does on Linux when the affinity of the process changes.
* **C210** (partial). False: both examples of the documentation fail (C210_documentation_examples_partial). Proved: what get_edges returns after every such program (C210_get_edges_partial) and exactly when it has the documented length (C210_documented_partial): no edge enters the node from another one (directed), every edge at the node is a loop (undirected).
* **C211** (partial). False of every field: as long as nothing is published there are at least w/d + h/d + 1 bags more than documented (C211_never_documented_partial). Proved: empty bags and occupied cells always make (ceil(w/d) + 1)(ceil(h/d) + 1), so the second half of the property holds (C211_count_partial).
* **C212** (proved). The process is written down on its own as `textbook` on a list of edges (Spec/NetworkPA); the published lists are exactly those of its edges, in order, for every drawing function that returns different positions when all weights are positive (GoodPick). C212_degrees: the weight is the length of the list of the node in an undirected network, and that plus the number of edges leading to the node in a directed one. In the parallel directed network the list of the second node can be a stale one (C124), the other lists, which hold all edges but none of that node's, are as stated. Weights are i32 in the code and integers in the model; the sampling itself (rand) is the drawing function.
* **C213** (proved). Spec: nextNodes / nodesAt on a list of numbered nodes (Spec/SyncNodes); the graph the agents see is joinedTo of the edges given to add_edge, or of the textbook process of C212. The network holds unlabelled edges (labels and weights are not looked at by such programs). A node whose agent died stays in the network with its last record. An agent without list of edges (second node of a directed network after preferential attachment, C124) is taken to see nobody. C213_repetitions: any number of repetitions.
* **C214** (proved). A consequence of C213 for one rule: Within counts edges on the list of pairs given to add_edge. In a directed network an agent looks along its outgoing edges, so the infection runs against them.
* **C215** (partial). False as stated: an edge added by one agent and removed by another, or one of two undirected edges removed by both of its ends, depends on who acts first (C215_conflict_partial, both implementations). Proved for all agents and all orders when for every pair of nodes at most one agent changes the edges between them or all of them only add edges there (C215_agents_partial), and for any two histories with the same calls, in the same order, about every pair (C215_pairs_partial). The history before the step is restricted as in C116 (no remove_node, no remove_all_edges), followed by a publication.
* **C216** (proved). Spec: nextNodes / nodesAt of C213 with hyperView, on the hyperedges given to add_edge (unlabelled; each with its members given once and no two with the same members, since add_edge otherwise adds only a part, C55). HNetwork has one implementation for both features; the parallel theorem takes each call of an agent as atomic, which the state's lock provides. C216_agree: the result is the same with and without the feature when the rule uses neither randomness nor the order of the members. C216_repetitions: any number of repetitions.
* **C217** (proved). Spec: nextPop / popAt of C141 with cellView: the value of a cell is that of the agent whose cell it is. C217_agree: without randomness both sequential grids, published either way, and the parallel grids published with lazy_update hold the same agents and publish the same numbers. The parallel theorem takes each call of an agent as atomic, which the state's lock provides. With the feature parallel and update the property fails: C218.
* **C218** (partial). False with the feature parallel: update keeps the write buffer, so the cell of an agent that died shows its last number for good and the others go on counting it, while lazy_update, and both calls without the feature, empty it (C218_dead_cell_partial, where two steps end with 17 instead of 12). C218_parallel_update_partial says exactly what update does there; C218_nobody_dies_partial: as long as nobody dies it does the same as lazy_update. Sequentially the property holds (fast is arbitrary in C217).
* **C219** (partial). Proved for the dense grid without the feature (C219_dense_trail_partial). False of the sparse grid and of both grids with the feature parallel: a number deposited in a cell that shows nothing does not evaporate in the step of its deposit (C219_first_deposit_partial). What these grids show is proved exactly (C219_sparse_trail_partial, C219_parallel_trail_partial): the same except that the first deposit in a cell has evaporated once less (C219_later_deposits_partial).
* **C220** (partial). Holds iff no two writes of a step put different numbers into the same cell: C220_order_partial for all trails of C219 (with f the identity: plain writes), C220_conflict_partial for every step with such a conflict, C220_not_any_order_partial a concrete program. C217 is the case where every agent writes its own cell.
* **C221** (proved). C221_generations (sequential), C221_parallel_generations (every interleaving), C221_parallel_completes. The field is any field with the laws of C141; offspring get their identities from a counter of the state, as is usual in models of the crate; the random values and the identities are those of some choice without repetition (FreshDraws, FreshNames), since both depend on the order of the turns. C221_repetitions: any number of repetitions without a reset; identities of newborn are never given again.
* **C222** (proved). C222_dense_grid, C222_sparse_grid, C222_parallel_grid, C222_field, C222_parallel_field: C221 with the laws of the fields from C142 and C143. Field2D over exact numbers.
* **C223** (partial). False of the code: Schedule::step drops both results. C223_ignored_partial: programs that differ only in what their agents return are in the same world after every number of steps, sequential and parallel; C223_nobody_new_partial and C223_parallel_nobody_new_partial: nobody is ever added unless the hooks of the state call the schedule; C223_not_scheduled_partial and C223_false_partial: a bacterium whose children never live. C221 is what does work: a list in the state, scheduled by after_step of the state.
* **C224** (partial). False: none of the macros calls reset, and a trail on a number grid that evaporates goes on into the next repetition although reset makes a new grid and check_reproducibility! (which does reset) reports equal runs. Proved: the repetitions are those with a reset if init sets all that reset resets, and only if a second init does not see whether the state was reset; then all are the same run, with and without terminal; models of agents on double-buffered fields as in C141 need no reset.
* **C225** (partial). Proved for 2, 4, 8, ... and 6, 24, 96, ... processes (where the boxes form a grid), all placements and all numbers of steps, if the rule does not depend on the order of what is seen, agents move at most delta along each axis, see at most the halo distance d, and d and delta are less than half the size of the blocks. False with three processes, for agents that walk over a whole block (with eight processes they are lost), and for rules that depend on the order: a witness each. Floats are exact rationals; MPI is what its calls mean.
* **C226** (partial). Proved for 2, 4, 8, ... and 6, 24, 96, ... processes under the conditions of C225. False with three processes and for agents that look further than the halo distance: a witness each.
* **C227** (partial). False: the row of a list has as many entries as configurations times the product of the lengths of the later lists (exact count for all lengths); equal to the number of configurations iff all lists but the first have one element. Two lists of 1000 values: 1.001e9 entries for 1e6 configurations.
* **C228** (partial). False: the folder has the date of the first use (a lazy static) and the list of plots is never emptied, so a later call replaces the csv file of every plot of the earlier ones for each repetition it comes to, with just the header if its model does not have the plot (proved for all calls, witness). Proved: the files of other plots and of later repetitions stay; the log file has the logs of all calls. Two plots of one name with different labels are in C235. C228_pictures_partial: the pictures of plots are replaced only by pictures of plots that the later model stores itself.
* **C229** (partial). False: the rows are written with {:?}, so each individual is in quotes and with escapes; read as a String it is another text for every individual whatsoever. Proved: the other columns are read as they were; integers of every width exactly when the type has them; different individuals are written differently, so nothing is lost. The text of an f32 and the quoting of the csv crate are trusted. C229_reading_partial: exactly which texts are read as numbers. C229_literal_partial: what is written for a text is a Rust literal for it.
* **C230** (partial). False: a process that comes first starts a ready send without a receive, which MPI calls erroneous (proved for every process with a neighbour). Proved: there is an order of the calls without such a send until the end, so it is a matter of timing; and if the library treats the send as an ordinary one, every order of the calls ends with all neighbours served, after exactly three turns per neighbour. C230_meaning_partial: what an early send is, spelled out.
* **C231** (partial). False: the distributed search leaves out the agents exactly at the place asked for, so an agent does not see itself (C231_self_negation_partial), nor others at its point (C231_same_point_negation_partial). The searches differ in nothing else (C85). Proved for rules that do not depend on what is at their place: one process (C231_one_process_partial) and the numbers of processes of C225 under its conditions (C231_same_agents_partial).
* **C232** (partial). False for a plot called Home: the name is already taken by the first page, so it gets no tab and no key shows its chart (C232_home_negation_partial, after all events). Proved for all other names, after all events (C232_own_tab_partial).
* **C233** (partial). The log is wrong: a repetition that ends by end_condition tells the terminal to close, and the next message, which then fails, is logged as an interruption by the user, with no key pressed; and q during a repetition is logged twice (C233_log_negation_partial). Proved for all models and interleavings: nothing is run after the first failed message and every step is followed by a message (C233_stops_partial); what was simulated is the run without terminal up to there, and all of it if nothing was logged (C233_prefix_partial); results are stored for every repetition begun (C233_results_partial); if end_condition never holds, only the user causes the message (C233_only_user_partial); q makes every later message fail (C233_key_partial); without keys the model is that of C87 (C233_no_key_partial).
* **C234** (partial). False in two ways. With the terminal every repetition empties the plots first, so one added before simulate! is gone and what is plotted to it is lost (C234_added_before_negation_partial, for all calls), while its csv file is still made. Without the terminal nothing empties them, and the points of all repetitions are in the same series (C234_piles_up_negation_partial, for all calls). Proved for plots added in a repetition with the terminal (C234_repetition_partial).
* **C235** (partial). False: plots whose names differ only in / and -, or a plot that is added again with other labels in a later repetition or call (the plots are cleared, the set of names is not), have one file, and each of them writes the rows of all from its own place on. Proved for all plots and repetitions: every character is that of the last write there (C235_bytes_partial); a plot with its own file has header and points, which is the file of C70 written out (C235_rows_partial), and so have plots with headers of one length together (C235_same_length_partial). With the longer header first a piece of the last line comes twice (C235_longer_first_partial); with the shorter header first the rows run into each other and the file has two lines for any number of points (C235_shorter_first_negation_partial); which one it is depends on the order of a hash set (C235_order_negation_partial). Points plotted in init are those of C70.
* **C236** (partial). False of the parallel network: if it is directed, the second node of the node set keeps showing the edges it had (C236_directed_negation_partial); and add_prob_edge with a seed draws from the nodes in the order of a hash function that each process draws anew (C236_add_prob_edge_negation_partial). With a node set of fewer than two nodes nothing is published, so the old edges stay shown (C236_short_negation_partial). Proved: the draws depend on generator, seed, node set and number of edges only, and the seeded call is the call of C51, C124 and C212 with that drawing function (C236_draws_partial); without the feature two networks with the same ids show the same lists afterwards, for every generator and whatever was there before (C236_sequential_partial); with it so do any two networks made by any histories with any processors and hash functions, of all nodes but the second one of directed networks, which shows exactly what it showed before (C236_parallel_partial); and the two implementations give the same lists (C236_across_partial).
* **C237** (partial). On real numbers (nothing is rounded), with the predictions of the process as parameters. Proved: where the variance is positive the formula is the integral of max (y - best) 0 over the normal distribution with predicted mean and variance, best being the largest predicted mean of the points evaluated, and it is positive (C237_formula_partial); without variance the score is 0, which is the expected improvement exactly if the mean is at most the best (C237_no_variance_partial). If that is so of all samples without variance and no variance is negative, the first sample with the highest expected improvement is chosen (C237_choice_partial), and never one without variance while another has some (C237_new_point_partial). False otherwise: a sample that is better for sure gets the score 0 and a worse one is taken (C237_sure_negation_partial), and samples with a negative variance (the root is not a number) have no score; if all are such, the first is taken whatever it is (C237_no_number_partial). Beyond the choice: more predicted mean and more predicted variance both raise the expected improvement (C237_prefers_partial), so the chosen sample is not dominated by another one (C237_undominated_partial).
* **C238** (partial). False under the feature parallel: a cell of the sparse object grid whose bag lost its objects shows no objects but is never returned (C238_emptied_negation_partial, C238_sparse_object_parallel_partial). Proved for the dense grids, the field, and the sparse grids otherwise; the uniformity of the generator (and, on the sparse grids, the independence of its draws) is a hypothesis expressed by counting the draws.
* **C239** (partial). False of the calls that lock shard after shard: is_empty says true of a map that is never empty (C239_is_empty_negation_partial), w_keys has a later key and misses an earlier one (C239_w_keys_negation_partial), clear spares an earlier key and removes a later one (C239_clear_negation_partial). Proved: insert, remove and get_write are single steps; len and is_empty are right at some moment when the others only add (or change) or only remove (or change) entries; w_keys, clear and apply_to_all_values_write are right key by key whatever the others do; with no other threads all are the calls of C15. The parallel schedule keeps the state locked during an agent's step, so this concerns threads started by the user.
* **C240** (proved). Full statement, exact rationals for f32, positive field sizes, two or more processes. How many blocks have which size is also shown (C240_sizes).
* **C241** (partial). True of the search by cells for objects off the upper borders, in plain and toroidal fields. False of both searches for an object on an upper border and of the exact search in general: the test of the corners is made for the cell of the object found only (witness). If one of two objects finds the other exactly, it is found by the other if and only if a corner of its own cell is within the distance of the other. Exact rationals for f32; on a torus the exact search is treated for distances below half the sizes less a cell.
* **C242** (partial). The whole statement on exact values (square root of the exact sum of squares). In single precision symmetry holds, the triangle inequality holds along one axis of a torus up to twelve rounding errors, and is false without them (witness); two different positions can be at distance 0, the squares being too small (witness).
* **C243** (partial). True of every history of a directed network in which each node is added once, and of those of an undirected one in which edges are removed between nodes with a single edge. False otherwise: with two parallel edges (or two loops) one remove_edge that answers one edge takes both from the other end (witnesses), and adding a node again hides its edges (witness).
* **C244** (partial). True of the search by cells for vectors of whole squares that keep the position and the objects inside the field and off its upper borders, and of the exact search if moreover the sides are multiples of the discretization (on a torus for small distances). False otherwise (witnesses): half a square is enough to lose a neighbour, across the seam of a torus neighbours are lost, and in a last square cut by the border the exact search finds what it does not find in a whole one.
* **C245** (partial). Proved at exact times (moving all times by any amount, for hooks that do not read the clock, and renumbering orderings, for all models). False of the single precision times of the code: moved 16777216 units the clock of a repeating agent stands still and an agent two units later never runs (witness). In single precision (the times of the code) it holds for whole times that stay below 16777216 with the delay and the steps made (C245_whole_partial).
* **C246** (proved). Proved of the sequential schedule for hooks that do not look at the schedule and make no call but schedule_repeating; the condition on ties is needed (witness with two agents of the same time and ordering).
* **C247** (partial). Proved at exact numbers for every factor, and in single precision for every factor 2^k and lengths that are multiples of 2^-50 (values that overflow are not modelled). False of the code otherwise: in a unit of one tenth an object on the edge of the search distance is lost although all numbers are exact, and in a field of size 2^-79 squares of distances vanish and everything is near.
* **C248** (partial). Proved for DenseGrid2D, SparseGrid2D and Field2D and every history whose closures, if any, are applied to the read or to the write state (with the closure keeping objects in or out of the set). False of the code for apply_to_all_values with READWRITE on both grids: whether a published object is written again depends on the other objects of its cell (witnesses). Empty bags and the density estimate count all objects by nature (witness).
* **C249** (partial). Proved for DenseGrid2D, SparseGrid2D (from new) and Field2D (from new, including the density estimate), for every history whose closures are applied to the read or to the write state. False of the code for apply_to_all_values with READWRITE on the grids: on the sparse grid only the last placed object of a cell survives, on the dense grid of the objects the closure makes equal the first placed one (witnesses). The location get_location reports for an object in several cells of a sparse grid depends on the order in the map; only whether there is one is claimed.
* **C250** (partial). Proved for the four sequential grids (values, objects, unwritten ones, empty cells up to order) and for the exact Field2D (positions, objects, both neighbour searches and empty cells up to order), for programs without apply_to_all_values, on the dense structures inside the grid or field, on the dense object grid without update. False outside: columns are stored one after the other, so a place above the structure is a cell of the next column while its mirror image panics (witnesses); get_location always takes the first column (witness). The parallel variants and machine floats: C260.
* **C251** (proved). Sequential DenseGrid2D, SparseGrid2D (maps walked in insertion order), Field2D with exact numbers, Schedule::step (sequential). The renaming must respect ==: neither equate different objects nor separate equal ones; C251_confused computes a confusing renaming that the dense grid notices. For the schedule no condition on the renaming is needed, since agents are told apart by ids alone.
* **C252** (proved). The layout routine of tui is a parameter; assumed of it: percentages that add up to 100 give every piece but the last its share and starting point, rounded down (ByShares). centered_rect asks for (100-p)/2, p, (100-p)/2, which add up to 99 for odd p: then nothing is claimed (the code uses 60 and 20). The products percentage * length must fit in 16 bits (655 cells). Styles and wrapping of the text are not modelled.
* **C253** (proved). Sequential Network; the hash maps of both runs are walked in the order of insertion (the same order for corresponding keys). Labels and weights may be changed by any map, so no call looks at them; C253_confused computes a renaming that confuses two nodes and is noticed.
* **C254** (proved). Sequential HNetwork; the maps are walked in the order of insertion. C254_confused computes a renaming that confuses two nodes and is noticed.
* **C255** (proved). C255_sum speaks of any list with each hyperedge once (Enumerates) and C255_enumeration shows that there is one. C255_repeated computes that a node named twice in add_edge breaks the sum, so the condition is needed.
* **C256** (proved). No hypothesis on the numbers: rnd and root are any functions. Other objects and order: if the original program does not panic, neither does the other one. C256_same computes that the order of calls about the same object matters. The functions of field_2d.rs are modelled over f32 with NaN and infinities (Model/MachineField).
* **C257** (partial). Proved for number grids (C257_number_grids_partial), object grids whose closures keep identities (C257_object_grids_partial), fields (C257_fields_partial), networks (C257_networks_partial) and preferential attachment (C257_attachment_partial). False without the condition on closures: if apply_to_all_values gives two objects the same identity, the hash function decides which of them stays (C257_merged_negation_partial). False of the order of the edges that remove_incoming_edges returns (C257_order_negation_partial), and false of add_prob_edge, which draws in the order of the hashes (C236_add_prob_edge_negation_partial). Numbers of processors with more than 2^64 shards are excluded.
* **C258** (partial). Proved of number grids whatever the program (C258_number_grids_partial), of the places of objects on grids and in fields whatever the program, and of the bags and neighbours if the program never calls update (C258_object_grids_partial, C258_fields_partial), for closures that keep identities. Without remove_object neither program panics (C258_no_panic_partial). False of the bags if the program publishes with update: an object placed in a cell hides the objects published there before; false of panics: remove_object panics unless another object was placed in the same cell since the last publication (C258_grid_negation_partial); the search of a field without objects panics (C258_field_negation_partial). Calls are executed one at a time.
* **C259** (partial). Proved of object grids if neither order panics (C259_object_grids_partial), which is the case without remove_object (C259_no_panic_partial), and of fields (C259_fields_partial), update and lazy_update and closures that keep identities included. False of panics: remove_object of one object panics unless another one was placed in its cell before (C259_grid_negation_partial). Calls are executed one at a time; concurrent placements that overlap are the subject of C107 and C114.
* **C260** (proved). C260_number_grids, C260_object_grids (closures that keep identities), C260_fields (exact numbers), C260_machine_parallel (f32, all values), C260_machine (f32 without the feature). Outside the field the axes differ without the feature (C250_field_negation_partial). The bird of the flockers example and agents that act on the answers are not covered.
* **C261** (partial). Proved for the sequential and the parallel search (every row), for the rows of a distributed generation, that fresh runs exist and are unique, that equal individuals have equal fitness in all rows and searches, and for the state column. False for the cloud: the fitness function gets a single run whatever `reps` is (C261_cloud_partial), so the fitness differs from that of the other modes (C261_cloud_negation_partial), and the repetitions of an individual all have the same fitness (C261_cloud_repeats_partial).
* **C262** (proved). C262_computer (sequential and parallel), C262_last (the reported best), C262_distributed (under the conditions of C63). The hypothesis on the fitness holds for simulations without randomness outside of the state by C261.
* **C263** (partial). C241 for machine floats. Proved for the search by cells with and without the feature parallel, if both objects lie in one cell each that the searches visit and the numbers of cells are below 2^30; for the exact search if check_circle says the same of both cells. False of the exact search otherwise (C263_exact_negation_partial), and of both for positions inside the field whose cell the rounding puts beyond the last one (C263_border_negation_partial: width 6.9, cells of 2.3).
* **C264** (partial). C245, C246 and C251 for machine floats. Names and orderings: for all times, NaN included (C264_names_partial, C264_orderings_partial, C264_retime_partial). The order of scheduling: without NaN, infinite times allowed (C264_order_of_scheduling_partial, C264_distinct_orderings_partial). False with NaN: three agents with orderings of their own, one at NaN; in one order of scheduling one of them runs in the first step, in another all three (C264_nan_negation_partial).
* **C265** (partial). Proved for histories in which nodes are added once each and not removed and nothing panics (C265_parts_partial): the part alone does not panic either and shows the same edges, objects and nodes. False otherwise: after remove_all_edges, removing the edges of a node panics at a node of the other part that has no list (C265_panic_negation_partial); after a node of the other part was removed, or added twice, a new node of this part gets the id of a node of the other part and shows its edges (C265_removal_negation_partial, C265_again_negation_partial). Under the feature parallel it is proved (C265_parallel_partial) for histories in which nodes are added once each and not removed, lists are not cleared and edges are removed only between published nodes; nothing panics then. With removed nodes it is false there as well (C265_parallel_removal_negation_partial).
* **C266** (partial). Proved if no two of the other agents share time and ordering and no watcher is due before all others (C266_watchers_partial, which also gives the clock); watchers may tie with anything. Holds for any number of steps if all agents start at the same time, the others have orderings of their own and the hooks make no calls (C266_together_partial). False otherwise: with a watcher at half times the agents run in every other step only (C266_ahead_negation_partial); a watcher on the heap can turn round the order of two agents that tie (C266_ties_negation_partial). The trace of observations is not compared, what the state records is. With the times of the code, infinities included, both results hold if nothing is scheduled at NaN (C266_machine_partial, C266_machine_together_partial); a watcher at NaN, which is not ahead of anybody, makes agents run before they are due (C266_nan_negation_partial). Under the feature parallel, whatever the simulation with watchers can come to the simulation without them can come to with enough workers, whatever times and orderings are, as long as other agents are pending (C266_parallel_partial); with a given number of workers it is false (C266_parallel_workers_negation_partial), since a watcher more deals the agents to other workers, and when only watchers are left the process without them exits (C266_parallel_exit_negation_partial).
* **C267** (partial). Proved with exact arithmetic (C267_exact_partial). Proved with machine floats for every rounding that is monotone and odd, in both builds, if the larger search does not panic in a debug build (C267_machine_partial), and under the feature parallel for distances that are not negative (C267_parallel_partial). The objects found are a sublist, so order and repetitions agree. False of a release build once the window of the larger search overflows: it finds nothing (C267_overflow_negation_partial). False of negative distances under the feature parallel: the capacity is computed from the square and panics (C267_negative_negation_partial). Both searches of the distributed field are covered with exact arithmetic (C267_distributed_partial).
* **C268** (partial). Proved for histories in which nodes are added once each and not removed: if the history does not panic then neither do the calls about the part alone, and they show the same hyperedges, in the same order, and the same objects (C268_parts_partial); and the history does not panic if the calls about each part alone do not (C268_no_panic_partial), other than for Network (C265). False otherwise: after a node of the other part was removed, or a node was added twice, a node added later gets the id of a node of this part and replaces its object (C268_removal_negation_partial, C268_twice_negation_partial).
* **C269** (partial). Proved: of schedules in which no pending agent has the next id (C269_schedule_partial; the id is used up), of both object grids and the continuous field, also with machine floats in debug and release builds, if the object is not in the bag yet (C269_dense_partial, C269_sparse_partial, C269_field_partial, C269_machine_partial), of the distributed field away from other processes (C269_distributed_partial), of edges between published nodes without an edge between them (C269_network_partial), and of hyperedges that add_edge reports as added between nodes with lists (C269_hypernetwork_partial). False otherwise: an object placed twice is removed altogether (C269_placed_negation_partial); in the distributed field an agent near another process is still sent there (C269_distributed_negation_partial); schedule_once with the next id makes dequeue remove that agent (C269_schedule_negation_partial); of two edges between the same nodes the older one is removed, and a node that is not published is not removed again (C269_network_negation_partial); after remove_all_edges empty lists are left where there were none (C269_hypernetwork_negation_partial). The states are compared with each other, except that maps are compared by what is found under each key. Under the feature parallel it is proved of object grids for the two calls remove_object_location and remove_object together, if the object is neither published nor written and there is a written bag (C269_parallel_partial); either call alone does not suffice, and without a written bag an empty one is left that hides the published bag after the next update (C269_parallel_negation_partial). The continuous field has no removal there.
* **C270** (partial). Proved for all programs in which an edge is removed with its ends swapped only while there is at most one edge between the two nodes (C270_ends_partial; the answers of the calls: C270_answers_partial); under the feature parallel if moreover nodes are added once each and not removed, lists are not cleared and edges are removed between published nodes (C270_parallel_partial). False with two edges between the same nodes: remove_edge(u, v) takes one edge from the list of u and all from the list of v (C270_two_edges_negation_partial, C270_parallel_negation_partial).
* **C271** (partial). Proved of the sequential and the parallel genetic search without restriction (C271_sequential_partial, C271_parallel_partial); of the distributed one for changes that leave the fitness 1000 alone (C271_distributed_partial), of the cloud one for changes that leave 0 alone and messages whose order of arrival does not depend on the fitnesses (C271_cloud_partial), of the random search for changes that leave f32::MAX alone (C271_random_partial), of the bayesian search for changes that leave f64::MIN alone and processes that score samples as before (C271_bayesian_partial). False otherwise: a changed fitness of 1000 makes the distributed search panic (C271_distributed_negation_partial), with negative fitnesses the cloud search reports no individual (C271_cloud_negation_partial), the random search does not accept a cost that is infinite (C271_random_negation_partial), and a process that looks at the values leads the bayesian search elsewhere (C271_bayesian_negation_partial). Rounding of the changed values is not modelled: the change is any function that keeps comparisons.
* **C272** (partial). Proved for writing and removing values on number grids (C272_dense_number_partial, C272_sparse_number_partial), placing and removing objects on the dense object grid (C272_dense_object_partial), removing objects on the sparse one and in the continuous field, with exact numbers and machine floats, where the count of agents is not reduced twice (C272_sparse_object_partial, C272_field_partial, C272_machine_partial), inserting, removing and clearing in the map of two sides (C272_map_partial), dequeuing (C272_schedule_partial), the publications, removing all edges, replacing and removing nodes of a network (C272_network_partial), and every call but the adding of nodes on a hypernetwork after any history (C272_hypernetwork_partial). False otherwise: publishing a grid, field or map again shows nothing (C272_number_publication_negation_partial, C272_object_publication_negation_partial, C272_map_negation_partial), objects are placed twice on the sparse grid and in the field (C272_placed_negation_partial), agents scheduled twice (C272_schedule_negation_partial), nodes get another id, edges of networks are added or removed twice (C272_network_negation_partial, C272_hypernetwork_negation_partial). Removing an edge of a network may be repeated if there is one such edge (C272_remove_edge_partial); remove_incoming_edges and remove_outgoing_edges remove one of several edges to the same node at a time, so that repeating them removes more (C272_edges_negation_partial). Under the feature parallel it is proved of publishing with update (C272_parallel_publication_partial), of writing values (C272_parallel_number_partial), of placing and removing objects on object grids (C272_parallel_object_partial) and of publishing and removing all edges of a network (C272_parallel_network_partial); it is false of lazy_update and of placing an object in a continuous field (C272_parallel_negation_partial). This is unlike the grids without that feature, on which update may not be repeated and objects are placed twice on the sparse grid.
* **C273** (partial). Proved for the dense and the sparse object grid and, under the feature parallel, for all interleavings (C273_dense_grid_partial, C273_sparse_grid_partial, C273_parallel_grid_partial), and for the continuous field with and without parallel, on a torus or not (C273_field_partial, C273_parallel_field_partial). In a field whose torus is not more than about twice as large as the reach, agents see up to three quarters of a cell further than they ask for; with the reach alone the claim is false there (C273_torus_negation_partial) and with the three quarters of a cell it holds. Agents whose rule draws random numbers are not covered: the draws of one agent depend on how many agents were served before. Births are not covered. Also proved for cellular automata on both number grids and under the feature parallel (C273_dense_cells_partial, C273_sparse_cells_partial, C273_parallel_cells_partial).
* **C274** (proved). Networks, directed or not, without and with the feature parallel (C274_network, C274_parallel_network), hypernetworks (C274_hypernetwork, C274_parallel_hypernetwork). Shown of the networks a program builds with add_node, add_edge and update; the rule of the agents draws no random numbers and keeps the identities of the nodes; the order in which a hash set yields the members of a hyperedge is any, but the same in both simulations.
* **C275** (partial). Proved for every way to move the cells of the dense and the sparse object grid and, under the feature parallel, for all interleavings (C275_dense_grid_partial, C275_sparse_grid_partial, C275_parallel_grid_partial), for continuous fields with the axes exchanged, with and without parallel (C275_mirrored_field_partial, C275_mirrored_parallel_field_partial), and for continuous fields in another unit of length (C275_rescaled_field_partial). False of continuous fields that are shifted by a part of a square: a pair of agents that see each other no longer do (C275_shifted_field_negation_partial). Agents whose rule draws random numbers are not covered, since the order of the draws is not fixed. Cellular automata on number grids, whose values may be translated as well, go through the moved steps and show the moved values (C275_dense_cells_partial, C275_sparse_cells_partial, C275_parallel_cells_partial).
* **C276** (proved). Proved for networks, directed or not, and for hypernetworks, with and without the feature parallel (C276_network, C276_parallel_network, C276_hypernetwork, C276_parallel_hypernetwork). The edges of the second network are those of the first under the other numbers, in any order; C270 adds that the ends of an undirected edge may be exchanged. Rules that draw random numbers are not covered, since the draws of an agent depend on the order of service.
* **C277** (proved). C277_searches (both searches, any two fields with the same discretization), C277_simulation and C277_parallel_simulation (whole simulations, with and without the feature parallel), C277_dense_grid, C277_sparse_grid and C277_parallel_grid. The squares that the border cuts off are tested with other corners in the other field, but these corners are outside every circle that does not touch the border. C277_across_the_border shows that the circle must be inside: a search that reaches over the border of a torus finds an object that the same search in the plane does not find. Exact numbers instead of f32; rules that draw random numbers are not covered, since the draws of an agent depend on the order of service.
* **C278** (partial). Proved of explore_sequential! and explore_parallel! for values of a parameter divided into two parts that are not empty (C278_values_partial), values listed in another order (C278_order_partial) and matched lists cut at the same place (C278_matched_partial), and of explore_parallel! for repetitions (C278_repetitions_partial). False of repetitions of explore_sequential! (C278_repetitions_negation_partial): a repetition starts from the state in which the one before ended; true if a simulation leaves nothing behind for the next (C278_sequential_repetitions_partial). False of empty parts, which panic (C278_empty_negation_partial). Proved of explore_distributed_mpi! for divided values, each part with any number of processes (C278_distributed_partial), and that the number of processes does not change the outcomes (C278_processes_partial). A model with a generator of its own, seeded by its parameters or fixed, is covered as any other; models that draw from a shared generator are not.
* **C279** (partial). Proved of agents of which no two of one model share time and ordering, if in no step the agents of one model are all due later than an agent of the other (C279_two_models_partial); for agents that are all scheduled for one time by a plan, and hooks that make no calls, the latter follows (C279_together_partial). Agents of different models may tie. False of models whose agents run at different times (C279_times_negation_partial): a step goes to the next time at which anything is pending, so each model slows down the other. False of agents of one model that tie (C279_ties_negation_partial). Under the feature parallel, whatever two models on one schedule can come to each can come to alone with enough workers, whatever times and orderings are, as long as both have agents pending (C279_parallel_partial).
* **C280** (partial). Proved of the sequential, parallel, distributed and cloud genetic searches that finish with both limits (C280_genetic_partial, C280_genetic_parallel_partial, C280_genetic_mpi_partial without the best, C280_genetic_cloud_partial with the best if some fitness is positive), of the random search (C280_random_partial), the bayesian search (C280_bayesian_partial) and of simulations: of a single repetition (C280_simulation_partial), the first of several (C280_first_repetition_partial) and all if init makes the state anew (C280_fresh_repetitions_partial). False of later repetitions otherwise (C280_repetitions_negation_partial), since they start where the one before ended. False of a longer search that panics (C280_panic_negation_partial).
* **C281** (proved). All three explorations: a fixed parameter (C281_fixed, C281_fixed_matched) gives equal rows; exchanged neighbours give a permutation of the outcomes (C281_order) or, matched, equal rows (C281_order_matched). Any other order of the parameters is made of such exchanges. A model is called with its parameters as a list; models that draw from a shared random generator are not covered.
* **C282** (proved). All three explorations: more values (C282_more_values) and matched against exhaustive (C282_matched); the converse is false (C282_not_all). explore_distributed_mpi! with no repetitions panics (C61) and is left out. The numbers of the configurations are not part of an outcome. Models that draw from a shared random generator are not covered.
* **C283** (partial). Proved of the sequential schedule (C283_later_partial) if no two of the other agents share time and ordering and the hooks do not look at the schedule. False of agents that share time and ordering (C283_ties_negation_partial): which of them runs first depends on the heap, and so on what else is on it. When nothing else is pending the clock jumps to the late agents (C283_jump_negation_partial), so the number of steps before their time is not fixed. False under the feature parallel (C283_parallel_negation_partial): a parallel step runs all pending agents, whatever their times (see C13).
* **C284** (proved). Sequential schedule: C284_sequential, for agents that may share time and ordering. Under the feature parallel: C284_parallel. Both conditions are needed: C284_orderings_decide has agents that may not be exchanged, C284_parallel_times_decide has agents due at different times, which a parallel step runs all the same. A turn is atomic under the feature parallel: the worker holds the lock of the state throughout (src/engine/schedule.rs:187-211).

## Disagreements between code, documentation and properties

Found while modelling and proving. Each item that names a property has a theorem with a concrete witness
in that property's list in MANIFEST.json.

* Schedule: `schedule_once` with an id that is pending keeps the old agent and only moves it (C10); in single precision an agent at time 2^24 reschedules itself at the same time for ever and starves the others (C12); the parallel step runs every pending agent whatever its time and ends the process when there is none (C14); `Schedule::with_threads(0)` panics at the first step (C14).
* `DBDashMap`: `update` never deletes (C18), `insert` answers `None` always because it removes the key first (C19).
* Number grids: an index outside the grid aliases another cell (C21); dense and sparse differ in `apply_to_all_values` with WRITE and READWRITE (C27); `get_random_empty_bag` of the sparse grids never returns on a full grid (C24).
* Object grids: `update` of `DenseGrid2D` inserts instead of replacing (C30); the bag index is decoded row-major although it is encoded column-major (C31); `apply_to_all_values` differs per option and panics (C32).
* `Field2D`: the neighbour search on a torus clamps and on a plain field wraps, apparently swapped, and misses objects in three more ways (C38); on a torus it returns objects farther than the distance for large distances (C37); off the torus it returns duplicates for large squares (C39); `t_transform` maps negative multiples of the size to the size (C42); a random empty position can be outside the field (C74).
* `Network`: `remove_edge` takes the ids from the published side and the lists from the written side; undirected parallel edges are removed asymmetrically (C45, C49); ids are reused after `remove_node` (C46); edges to removed nodes remain and `get_edge` panics on them (C48, C50); `remove_all_edges` drops the lists, so `get_edges` answers `None` and the remove functions panic (C52); the documented example of `remove_incoming_edges` removes nothing (C79).
* `HNetwork`: a repeated node in the slice of `add_edge` leaves the network inconsistent (C53, C55); unpublished hyperedges survive `remove_object` (C56); `nodes2id` is not double buffered (C80); ids are reused (C46).
* kd-tree: corner agents are sent to the first border only (C58); `create_tree` with an id other than 0 finds the wrong neighbours (C82); agents near a foreign block are not sent if the number of processes is neither a power of two nor 6 * 4^j (C84); removed agents are still sent (C86); `message_exchange` without regions ignores its argument (C83).
* Drivers: `simulate!` with the terminal may skip repetitions (C87); `simulate_mpi!` finalizes MPI inside the loop (C88); the widths of the report underflow (C89); `check_reproducibility!` accepts a prefix or panics (C73).
* Exploration: an empty parameter list divides by zero (C59); the sequential and the parallel macro label repetitions differently and the sequential one reuses the state (C60); the distributed macro labels by the index in the share (C61); matched mode takes the length of the last list (C90).
* Genetic search: an empty population panics (C62); the distributed search loses individuals when the population changes size (C63), starts from a made-up individual of fitness 1000 (C91), leaves processes in the loop (C92); the cloud search starts from fitness 0 (C93), and a function without work sends a message that is no JSON (C94); strings are put in the message without JSON escaping (not a property, seen while modelling).
* Search and csv: `gen_param!` with n = 0 yields nothing (C67); the bayesian search may return a value of no point (C66); random search chains the runs on one state (C96); `load_csv!` ignores the names (C97).
* Monitoring: plots and files (C69, C70), keys before the first log panic (C72), `plot!` with csv panics without the terminal (C99), the newest samples are not shown (C100), 0 repetitions (C101). LOGS is never cleared between two `simulate!` calls; `addplot!` of an existing name with other labels keeps the first labels.
* `parallel` grids: `update` and `apply_to_all_values` differ from the sequential variant (C103), an object placed twice is in two bags (C104), `remove_object_location` panics right after `lazy_update` (C105), bags keep the old objects (C106), two concurrent placements lose an object (C107), emptied bags are not listed as empty (C108).
* `parallel` `Field2D`: `update` publishes although it does nothing without the feature (C109); a search with nothing published divides by zero (C110); ghosts (C113), lost objects (C114), a panicking unbuffered read (C115).
* `parallel` `Network`: `remove_all_edges` has no visible effect and makes `remove_edge` panic (C119); a removed node stays visible (C120) and its id and edges pass to the next node added (C121); `remove_node` is visible at once and can make `get_edge` panic (C117, C122); preferential attachment keeps old edges of the second node (C124); `remove_edge` works on unpublished nodes, unlike without the feature (C116).
* Terminal of `simulate!`: the slot is marked consumed without looking whether it still holds what was read, so the last step, the last repetition (C126) or `Quit` (C127) can be lost; with `Quit` lost `simulate!` waits for a key. `Clear` is never marked consumed, so after a repetition without steps the terminal clears the screen in every round.
* Visualization: `end_condition` is never asked (C130); agents scheduled during the run have no sprite (C131); `update`'s visibility is overwritten and the height is incremented in every frame, so an `update` that does not set it lets the sprite climb (C132); objects of a grid start one unit below the place of the first frame, and stay drawn when removed (C133); edges whose nodes return to their first locations stay where they were (C134).
* Visualization: the window constraints built in `setup` are not given to the window, so the window can be as narrow as the panel and the scale of the camera has a zero denominator; `LineType` and `ArrowOptions` are not used.
* Features: `visualization` selects the fields on double-buffered DashMaps (C103 to C124) together with the sequential schedule; a model that is right without the feature is under the same rules as with `parallel`.
* C140: `Bird::step` of the flockers test model wraps `loc_y` with `width` instead of `height` (tests/model/flockers/bird.rs:147); in a world wider than high birds leave the field.
* C145: `Display for Network` looks up ids 0..n and panics with "error on get" when a node other than the last has been removed.
* C146: with a NaN time the order of `Priority` is not transitive, so the heap of the schedule is not a heap; `Eq` is not reflexive.
* C149: `store_plot` replaces / by - in file names, so different plots may overwrite each other's pictures; colours and markers repeat after six series.
* C154: the parallel `step` calls `std::process::exit(0)` when nothing is pending; the sequential one goes on.
* C155: `draw_tab` adds a fifth of max_y to the upper bound of the chart; for a negative maximum this lowers it and hides the highest points. The right end of the x axis is labelled max_x but is max_x + 10.
* C156: the colour list of `draw_tab` has yellow twice, so the sixth and ninth series look alike.
* C157: bars are at most eleven and at least three characters wide.
* C158: `{:<9}` has no effect on a `LogType`, its `fmt` ignores the width.
* Parallel network: add_prob_edge after a node has been removed and another added (which may get the id of a third) can panic or write two edges to the same node (C123).
* C163: `apply_to_all_values` with WRITE and READWRITE on number grids calls the closure while a shard is locked (dbdashmap.rs:237-265); the published-side options do not. Nothing in the documentation warns of it.
* C165: `log!`, `plot!` and `addplot!` evaluate their arguments inside the critical section (lib.rs:1241-1441), `plot!` up to three times.
* C168: Field2D `get_neighbors_within_relax_distance` takes `borrow_mut` though it only reads (field_2d.rs:509), so it panics inside `iter_objects`; `get_neighbors_within_distance` does not.
* C168: dense number grids borrow the published side mutably in READWRITE (dense_number_grid_2d.rs:182) where sparse ones borrow it shared, so on a dense grid no function of the grid may be called in the closure.
* HNetwork `get_object` takes `borrow_mut` (hnetwork.rs:334) though it only reads.
* The sequential Network prints " HELLO " to the standard output in `remove_edge` of undirected networks (network.rs); printing is not modelled.
* C170: `consistency` of the flockers simulation is divided by `count` twice (tests/model/flockers/bird.rs:83-95).
* Flockers: if both random numbers are 1/2 the random vector is 0/0 = NaN (bird.rs:112-123), the position becomes NaN and stays so; the exact model (C138-C140) takes 0, the machine model (C186) does what the code does.
* C171: `toroidal_transform(val, dim)` in f32 gives `dim` for every val with -dim/2^26 <= val < 0 (src/engine/fields/field_2d.rs:1004-1016).
* C173: `Field2D::new` computes the number of bags in f32, so fields of more than 2^24 cells may get too few and panic at the far corner (src/engine/fields/field_2d.rs:308-309); after the first lazy_update the swapped read buffer is short as well.
* C173: `discretize` rounds the quotient, so a position just below a cell border is counted in the next cell (src/engine/fields/field_2d.rs:328-339).
* C174: an agent wrapped onto `dim` by the rounding of C171 sits in the border row, which searches never visit.
* C177: after a panic of an agent (or of `draw`, C101) nobody leaves raw mode and the alternate screen: `sim_thread.join().expect(..)` (src/lib.rs:1128) ends the program while the terminal thread is in its loop. The message of the panic is printed to the alternate screen.
* C178: `DenseNumberGrid2D::new` and `DenseGrid2D::new` multiply the sizes as i32: a grid of 2^31 cells or more panics or, in a release build, aliases cells (65537 by 65536).
* C179: the counter of agents is a u32 that counts all agents ever scheduled; after 2^32 of them new agents replace the priority of old ones and are dropped (release) or the program panics (debug).
* C180: with f32 the corner `i * d` of a cell may be discretized to the cell before (d = 0.9, i = 3; d = 0.7, i = 13): `get_empty_bags` and `get_random_empty_bag` return locations that are occupied.
* C181: `set_object_location` takes a NaN coordinate for 0 (`as i32`), and the object is then published in a cell of the first row or column; a release build does the same with minus infinity when `dh` is even (the product wraps to 0). `get_neighbors_within_distance` returns such objects whenever their cell lies within the circle.
* C182: a search with an infinite distance (or one of at least 2^31 cells) outside the first cell panics with an overflow in a debug build and returns nothing in a release build.
* C183: `toroidal_transform(inf, dim)` is NaN; a relaxed search around NaN is a search around 0.
* C186: a bird of the flockers simulation that draws 1/2 twice computes 0/0; its position and last move are NaN for ever; the field files it in the first cell, where `get_neighbors_within_distance` finds it without looking at its position, and every bird that sees it becomes NaN as well.
* C187: the flock depends on the order of the birds within a step from four birds on: the sums over the neighbours are sums of f32.
* C190: with the feature parallel a search reserves room for (area / objects) * distance² objects; an infinite distance always panics, a distance of an eighth of a field of 131072 by 131072 with one object panics, a quarter of it panics in debug only (in release the product wraps around to 0); in a field of 1000 by 1000 with one object a search as far as 100 asks for room for 10^10 objects.
* C188: as without the feature (C181), objects at NaN are shown at 0 and all coordinates from 2^31 cells on are one cell; with the feature this holds for infinite and negative positions as well, because nothing bounds the cell.
* C192: nothing keeps NaN out of the schedule. An agent scheduled at NaN ahead of the others makes one step run every pending agent, whatever its time, and sets the clock to NaN; src/engine/priority.rs implements Ord although the comparison is not transitive with NaN.
* C193: from 2^24 on (and below -2^24 - 4) adding 1.0 to an f32 time gives the same time again, so a repeating agent there runs in every step for ever and no later agent ever runs.
* C195: in single precision the blocks of a kd-tree can leave a gap: with seven processes on the field from x = 0.7 of width 1.2, the location nearest to 1.9 lies inside the field but in no block, and get_block_by_location panics. A NaN coordinate panics on every field.
* C196: corners of adjacent blocks are compared with == although computed along different paths. With 25 processes on a field of sides 1.1, process 17 has only one of its six neighbours, and agents near the lost borders are not sent.
* C198: SparseGrid2D and Field2D push a re-placed object without taking out the equal one that is already there, DenseGrid2D takes it out: an agent placed, changed and placed again in one step is shown twice, once as it was.
* C199: the two modes of the genetic search on one computer stop at different places: the sequential one at the first good individual or at a selection of one, the parallel one after the whole generation and at a selection of none.
* C200: the best of a generation starts from its first individual and the best of the search from the first generation; a NaN there is never replaced, as every comparison with it is false.
* C201: the cloud search mutates before the crossover, the other modes after it, and hands every individual to the selection once per repetition.
* C202, C94: the answers of the cloud functions are made by format! without escapes: quotes, backslashes, line breaks, NaN and infinite fitnesses change them or make the search panic.
* C203: the gauge for repetitions is only told when a repetition has been finished, and with the index of that one, so that it is one behind from the second repetition on.
* C204: plot! inserts its argument expressions at every place where they are used instead of binding them first.
* C206: Real2D and Priority compare floats by ==, so minus zero equals zero, but print the sign; AgentImpl compares ids only but prints its flag.
* C207: with_window_dimensions changes only numbers that cancel out; window_constraints is filled in and never used; the comments promise 500 times 300 and black where the code has 600 times 300, 300 times 300 and white.
* C208: cfg conditions inside the macros are evaluated in the calling crate; the feature `cloud` does not exist in Cargo.toml; the cloud arm prints a warning and runs nothing (and has another type than the other arms).
* C209: lazy_update, update and merge_r_shards loop up to shard_amount(), which asks for the number of processors again, instead of the number of shards of the map.
* C210: the examples of get_edges expect incoming edges in a directed network and every edge twice in an undirected one; the code lists outgoing edges, once.
* C211: the example of get_empty_bags expects 400 bags; the code has one more row and column, 441.
* Documentation examples run on the model in Conformance/Docs.lean. Besides C210 and C211 these assertions do not hold: remove_all_edges (the lists are gone, unwrap panics), remove_edge, remove_incoming_edges, remove_outgoing_edges and remove_node (nothing is removed unless update was called before, the ids are looked up in the read state), HNetwork remove_node (get_node takes an id), num_objects_at_location (expects 2 objects where 1 was placed), get_random_empty_bag of the field (expects two draws to differ).
* C215: remove_edge on an undirected network takes one edge out of the list of its first node but all edges of the pair out of the list of the second, so two agents that each remove their edge to the other leave an edge in the list of the one that acted first.
* C218: with the feature `parallel`, `update` of the number grids leaves the numbers of agents that died in the grid, while `lazy_update` and the sequential grids remove them; two steps of a two-cell automaton end with 17 instead of 12 (src/utils/dbdashmap.rs, src/engine/fields/dense_number_grid_2d.rs:72-78).
* C219: `apply_to_all_values` with READWRITE on the sparse number grid and on the parallel grids visits the published cells only, so a number written this step into an empty cell is not passed to the closure; the dense grid without the feature passes it (src/engine/fields/sparse_number_grid_2d.rs:172-176, src/utils/dbdashmap.rs).
* C220: two writes of a step into the same cell: the later one wins, and the order of the agents is that of the schedule's queue.
* C223: the agents returned by `Agent::before_step` and `Agent::after_step` are dropped by `Schedule::step` (src/engine/schedule.rs:397-399, 191-193), although `ScheduleOptions` is documented as the way an agent reproduces (src/engine/schedule.rs:418-423).
* C224: State::reset is documented to reset all the values of the simulation, but simulate! never calls it: what init does not set is carried into the next repetition.
* C225: message_exchange only serves neighbours: an agent put into agents_to_send for a process that is not a neighbour is discarded by the next lazy_update, without an error.
* C227: build_configurations! goes n_conf times round the loop that pushes rep entries, so each row but the last is longer than n_conf by the factor rep; the surplus is never read.
* C228: PLOT_NAMES, LOGS and CURRENT_DATE are never reset: a second simulate! in a program truncates csv files of the first, also those of plots its model does not have.
* C229: write_csv writes the individuals of a genetic search in the form of {:?} (in quotes): load_csv! as String, which new_with_parameters would take, gives a different text for every individual.
* C230: message_exchange uses immediate_ready_send for the lengths, which MPI allows only if the receive is already posted; nothing makes the other process come first.
* C231: get_neighbors_within_distance of the distributed field leaves out every agent exactly at the place asked for; that of Field2D returns them, the caller included.
* C232: a plot called Home has no tab in the terminal, since draw only adds titles that are not there yet and the first page is called Home.
* C233: a simulation that ends by its end condition can be logged as Simulation interrupted by user, because the terminal closes at the Quit message and the next send fails.
* C234: a plot added before simulate! with the terminal does not exist in any repetition; without the terminal the plots of all repetitions are one.
* C235: two plots of one file overwrite each other's rows; the result depends on the order of the hash set PLOT_NAMES. Model/Monitor (files of rows) appends instead and is only used for one writer per file; C235_rows_partial shows that there it agrees with the model of characters.
* C236: in a directed network with the feature parallel, the second node keeps its old edges after a seeded call; add_prob_edge with the same seed joins other nodes in another process, because it draws from a list in the order of hashes.
* C237: a sample with predicted variance 0 and a mean above the best has score 0 (expected_improvement returns early), so a worse sample is evaluated.
* C238: under `parallel` the sparse object grid never draws a cell whose bag was emptied by `remove_object`, although `get_objects` says it has none.
* C239: `len`, `is_empty`, `w_keys` and `clear` of `DBDashMap` lock one shard after the other, so another thread can make `is_empty` say true of a map that is never empty.
* C241: of two objects in one cell the one near a corner finds the one in the middle by the exact search and is not found by it; an object on the upper border finds its neighbours and is not found.
* C242: in single precision the way over a third position can be shorter than the straight one by a rounding error, and positions 2^-80 apart are at distance 0.
* C243: in an undirected network with two parallel edges remove_edge answers one edge but removes three of the four entries; with two loops at a node it answers one and removes both.
* C244: whether two objects are neighbours depends on where the borders of the squares lie between them, on the seam of a torus, and on a last square being cut.
* C245: times are f32, so from 16777216 on adding 1 does not change them and a simulation scheduled that late does not run as an earlier one does.
* Macros: the forms of explore_sequential! and explore_parallel! without output (src/explore/model_exploration.rs:309-311, 427-432) call the long form without the comma it requires at the end, and the first one also swaps the state and the number of repetitions; no call of them compiles. They are outside the model.
* C247: distances are compared after rounding, so an object within the distance can be outside of it when all lengths are given in a unit of one tenth; and lengths below 2^-75 or so have squares that are zero.
* C248: apply_to_all_values with READWRITE skips the published objects of a dense cell as soon as another object has been written there, and on the sparse grid writes only the last published object of a cell.
* C249: after apply_to_all_values with READWRITE on a sparse grid the surviving object of a cell depends on the order of placement; on a dense grid the version kept of objects made equal does.
* C250: a place above a dense grid or field (y = height) is a cell of the next column, a place to its right (x = width) panics; get_location prefers the first column whatever the axes.
* C252: for an odd percentage centered_rect asks for percentages that add up to 99, so the place of the popup is up to the solver; over 100 it panics.
* Under the feature parallel, update publishes the written bag of a cell in place of the published one (src/utils/dbdashmap.rs: update), so that an object placed in a cell hides the objects published there before and not placed again; the locations of those objects stay published (C258_grid_negation_partial).
* C261: the cloud functions give the fitness function a single run: the loop over `reps` is commented out (src/explore/aws/genetic.rs:184), and `new_with_parameters` is called with one argument where the other modes pass two.
* C263: with width 6.9 and cells of size 2.3 (as f32) positions just below the right border get cell number 3 of 3 cells (0 to 2): such an object finds its neighbours and is found by nobody.
* C264: with one agent at time NaN among three, the order in which the agents were scheduled decides whether one or all three run in the first step, although no two share an ordering: the comparison is not transitive and the heap's root depends on the order of insertion.
* C265: removing a node of one part of a network makes a node that is added to another part later share the id, the edges and the object of a node of the first; adding a node twice does the same; and remove_all_edges in a network makes the removal of edges in one part panic at nodes of another.
* C266: a step goes to the next time at which anything is pending, so an agent at times of its own that does nothing changes what a number of steps of a simulation does: update and the hooks run for it as well, and the other agents run later.
* C267: under the feature parallel a search within a negative distance, which finds nothing, reserves memory for the square of the distance and panics if that is too much.
* C268: removing a node of one part of a hypernetwork, or adding a node twice, makes a node that is added to another part later share the id of a node of the first and replace its object.
* C269: in the distributed field, removing an agent does not take back what insert noted for the neighbouring processes; in a network remove_edge removes the oldest edge between two nodes, not the one added last, and remove_node does not remove a node that was not published yet.
* C270: with several edges between two nodes of an undirected network, remove_edge(u, v) leaves edges at u but none at v, remove_edge(v, u) the other way round.
* C271: the distributed genetic search takes the fitness 1000 for a missing one, the cloud search starts from the fitness 0 and the random search from f32::MAX, so that searches depend on the unit and the zero of their fitnesses and costs.
* C272: publishing a grid, a field or a map of two sides twice hides everything, while publishing a network or a hypernetwork twice is harmless; placing an object twice is harmless on the dense object grid but not on the sparse one or in the field; adding an edge twice is harmless in a hypernetwork but not in a network.
* C273: on a torus, an agent that looks half around it is influenced by agents further away than the distance it asks for, since whole cells are taken without being measured (compare C37).
* C275: shifting all agents of a continuous field by a part of a square of the discretization changes the simulation, since whole squares are searched (compare C244).
* C278: with explore_sequential! two repetitions are not one repetition done twice, since the state is not made anew between them.
* C279: two models on one schedule whose agents run at different times need more steps than each alone, and a limit on the number of steps cuts both short.
* C280: with simulate! and several repetitions, a greater limit of steps changes the start of every repetition but the first, unless init makes the state anew.
* C283: an agent scheduled for later can change the order in which agents that share time and ordering run now.

## Which parts of the code are modelled

Computed from the citations in the model: for each source file, the functions and macros at least a
third of whose lines is cited by a model definition, and the Lean modules with these citations.

* `src/engine/agent.rs` (Births, MachineFlockers, Reproduce, Synchronous): modelled `is_stopped`, `before_step`, `after_step`.
* `src/engine/agentimpl.rs` (Keys, Schedule, Texts): modelled `new`, `fmt`, `eq`, `hash`; not modelled `id` (line 32).
* `src/engine/fields/dense_number_grid_2d.rs` (DenseI32, DenseNumberGrid, Grid, ParGrid, SyncCells): modelled `new`, `apply_to_all_values`, `get_value`, `get_value_unbuffered`, `set_value_location`, `lazy_update`, `update`, `new`, `apply_to_all_values`, `get_location`, `get_location_unbuffered`, `get_empty_bags`, `get_random_empty_bag`, `get_value`, `get_value_unbuffered`, `iter_values`, `iter_values_unbuffered`, `set_value_location`, `remove_value_location`, `lazy_update`, `update`.
* `src/engine/fields/dense_object_grid_2d.rs` (DenseI32, DenseObjectGrid, ParGrid, Synchronous): modelled `new`, `apply_to_all_values`, `get`, `get_objects`, `get_objects_unbuffered`, `get_location`, `get_location_unbuffered`, `iter_objects`, `remove_object`, `remove_object_location`, `set_object_location`, `lazy_update`, `update`, `new`, `apply_to_all_values`, `get_empty_bags`, `get_random_empty_bag`, `get_location`, `get_location_unbuffered`, `get_objects`, `get_objects_unbuffered`, `iter_objects`, `iter_objects_unbuffered`, `set_object_location`, `remove_object_location`, `lazy_update`, `update`, `calculate_indexes_bag`.
* `src/engine/fields/field.rs` (Synchronous): modelled `update`, `lazy_update`.
* `src/engine/fields/field_2d.rs` (Field2D, Flockers, Locks, Machine, MachineField, MachineFlockers, ParField2D, ParMachineField, Single, SingleField, Synchronous, Torus): modelled `new`, `discretize`, `get_neighbors_within_distance`, `get_neighbors_within_relax_distance`, `get`, `get_objects`, `get_location`, `get_location_unbuffered`, `get_unbuffered`, `num_objects`, `num_objects_at_location`, `set_object_location`, `update`, `lazy_update`, `new`, `discretize`, `not_discretize`, `get_neighbors_within_distance`, `get_neighbors_within_relax_distance`, `get_objects`, `get_objects_unbuffered`, `iter_objects`, `iter_objects_unbuffered`, `get_empty_bags`, `get_random_empty_bag`, `num_objects_at_location`, `set_object_location`, `remove_object_location`, `update`, `lazy_update`, `t_transform`, `check_circle`, `distance`, `toroidal_distance`, `toroidal_transform`.
* `src/engine/fields/hnetwork.rs` (HNetwork, SyncHyper): modelled `new`, `eq`, `new`, `add_edge`, `add_node`, `get_edge`, `get_edges`, `get_object`, `get_id`, `remove_all_edges`, `remove_edge`, `remove_edge_with_hedge`, `remove_object`, `update_node`, `default`, `update`, `lazy_update`.
* `src/engine/fields/kdtree_mpi.rs` (Exchange, Field2D, KdMachine, KdTree, Torus): modelled `new`, `create_tree`, `first_subdivision`, `get_boundary_points`, `get_block_boundary_points`, `calculate_regions`, `calculate_neighbor_regions`, `split`, `get_block_by_location`, `insert`, `insert_read`, `remove_object_location`, `discretize`, `get_neighbors_within_distance`, `message_exchange`, `get_distributed_neighbors_within_relax_distance`, `lazy_update`, `t_transform`, `check_circle`, `distance`, `toroidal_distance`, `toroidal_transform`; not modelled `drop` (line 853), `update` (line 882).
* `src/engine/fields/network.rs` (Locks, Network, NetworkDisplay, NetworkSeed, ParNetwork, SyncNodes): modelled `new`, `new`, `add_edge`, `add_node`, `add_prob_edge`, `get_edge`, `get_edges`, `get_object`, `preferential_attachment_BA`, `preferential_attachment_BA_with_seed`, `remove_all_edges`, `remove_edge`, `remove_incoming_edges`, `remove_outgoing_edges`, `remove_node`, `update_node`, `update`, `lazy_update`, `fmt`, `new`, `add_edge`, `add_node`, `get_edge`, `get_edges`, `get_object`, `get_id`, `preferential_attachment_BA`, `preferential_attachment_BA_with_seed`, `remove_all_edges`, `remove_edge`, `remove_incoming_edges`, `remove_outgoing_edges`, `remove_node`, `update_node`, `update`, `lazy_update`.
* `src/engine/fields/sparse_number_grid_2d.rs` (Grid, ParGrid, SparseNumberGrid, SyncCells): modelled `new`, `apply_to_all_values`, `get_value`, `get_value_unbuffered`, `set_value_location`, `lazy_update`, `update`, `new`, `apply_to_all_values`, `iter_values`, `iter_values_unbuffered`, `get_empty_bags`, `get_random_empty_bag`, `get_location`, `get_location_unbuffered`, `get_value`, `get_value_unbuffered`, `set_value_location`, `remove_value_location`, `lazy_update`, `update`.
* `src/engine/fields/sparse_object_grid_2d.rs` (ParGrid, SparseObjectGrid, Synchronous): modelled `new`, `apply_to_all_values`, `get_empty_bags`, `get`, `get_objects`, `get_objects_unbuffered`, `get_location`, `get_location_unbuffered`, `get_unbuffered`, `get_random_empty_bag`, `iter_objects`, `remove_object`, `set_object_location`, `lazy_update`, `update`, `new`, `apply_to_all_values`, `get_location`, `get_location_unbuffered`, `get_objects`, `get_objects_unbuffered`, `get_empty_bags`, `get_random_empty_bag`, `iter_objects`, `iter_objects_unbuffered`, `set_object_location`, `remove_object_location`, `lazy_update`, `update`.
* `src/engine/location.rs` (Grid, Keys, Machine, MachineField, Single, Texts, Torus): modelled `fmt`, `eq`, `fmt`, `eq`, `hash`.
* `src/engine/priority.rs` (Keys, MachineSchedule, Schedule, Texts): modelled `new`, `cmp`, `partial_cmp`, `eq`, `fmt`.
* `src/engine/schedule.rs` (Births, F32, Locks, MachineSchedule, Panics, ParField2D, ParGrid, ParallelSchedule, Reproduce, Schedule, ScheduleU32, Texts): modelled `fmt`, `schedule_once`, `schedule_repeating`, `get_all_events`, `step`, `fmt`, `new`, `schedule_once`, `schedule_repeating`, `distributed_schedule_repeating`, `get_all_events`, `dequeue`, `step`; not modelled `new` (line 65), `new` (line 80), `with_threads` (line 90), `new` (line 246), `default` (line 261).
* `src/engine/state.rs` (Births, Driver, Flockers, SyncNodes, Synchronous, Visual): modelled `reset`, `update`, `before_step`, `after_step`, `end_condition`, `before_step`, `after_step`, `end_condition`.
* `src/explore/aws/genetic.rs` (GeneticAws, GeneticAwsLoop, GeneticRuns): modelled `explore_ga_aws`.
* `src/explore/bayesian.rs` (Fl, Improvement, Search): modelled `bayesian_search`, `generate_samples`, `acquisition_function`, `expected_improvement`.
* `src/explore/genetic.rs` (CsvText, Dispatch, Fl, Frame, Genetic, GeneticRuns): modelled `field_names`, `to_string`, `new`, `evolutionary_search`, `explore_ga_sequential`, `explore_ga_parallel`; not modelled `build_dataframe_explore` (line 16).
* `src/explore/model_exploration.rs` (Dispatch, Driver, Explore, Frame): modelled `explore`, `simulate_explore`, `explore_sequential`, `explore_parallel`, `build_dataframe`, `field_names`, `to_string`, `new`.
* `src/explore/mpi/genetic.rs` (Frame, GeneticMpi, GeneticRuns): modelled `extend_dataframe_explore`, `equivalent_datatype`, `explore_ga_distributed_mpi`.
* `src/explore/mpi/model_exploration.rs` (Explore, Frame): modelled `extend_dataframe`, `equivalent_datatype`, `explore_distributed_mpi`.
* `src/explore/random_search.rs` (Fl, Search): modelled `random_search`.
* `src/lib.rs` (Charts, CsvBytes, CsvText, Dispatch, Driver, Explore, Gauges, Interrupt, Locks, Monitor, Picture, PlotArgs, Plots, Search, Simulations, Terminal, TerminalLocks, TerminalModes): modelled `new`, `store_plot`, `fmt`, `fmt`, `new`, `default`, `simulate`, `description`, `plot`, `addplot`, `log`, `simulate_old`, `simulate_mpi`, `build_configurations`, `write_csv`, `gen_param`, `load_csv`, `check_reproducibility`; not modelled `replace_expr` (line 1704), `count_tts` (line 1713).
* `src/utils/dbdashmap.rs` (DBDashCpus, DBDashMap, DBDashThreads, HashMap, Locks, ParGrid): modelled `shard_amount`, `ncb`, `with_capacity_and_hasher`, `hash_usize`, `determine_shard`, `insert`, `remove`, `get_read`, `get_key_value`, `get_write`, `lazy_update`, `merge_r_shards`, `len`, `r_len`, `keys`, `values`, `clear`, `is_empty`, `is_empty_r`, `update`, `apply_to_all_values`, `apply_to_all_values_write`, `apply_to_all_values_read_write`, `apply_to_all_keys`, `w_keys`; not modelled `default` (line 34), `new` (line 40), `with_capacity` (line 44), `with_hasher` (line 50).
* `src/utils/monitoring/ui.rs` (Charts, Gauges, Monitor, Popup, Tabs, TerminalLocks): modelled `next`, `previous`, `new`, `on_up`, `on_down`, `on_right`, `on_left`, `on_key`, `on_tick`, `on_rep`, `centered_rect`, `draw`, `draw_tab`, `draw_first_tab`, `draw_gauges`, `draw_charts`; not modelled `new` (line 36), `show_popup` (line 250), `draw_text` (line 635).
* `src/utils/ref.rs` (Locks): modelled `new`, `value`, `value_mut`, `deref`, `deref_mut`.
* `src/visualization/asset_handle_factory.rs` (Visual): modelled `new`, `load_emoji_sprite`, `get_material_handle`, `get_material_handle`; not modelled `get_emoji_loader` (line 26), `get_emoji_loader` (line 78).
* `src/visualization/fields/network.rs` (Visual): modelled `init_network_graphics`, `render`; not modelled `default` (line 31).
* `src/visualization/fields/number_grid_2d.rs` (Render, Visual): modelled `texture`, `render`, `batch_render`.
* `src/visualization/fields/object_grid_2d.rs` (Visual): modelled `init_graphics_grid`, `render`.
* `src/visualization/systems/camera_system.rs` (Visual): modelled `camera_system`.
* `src/visualization/systems/init_system.rs` (Render, Visual): modelled `init_system`.
* `src/visualization/systems/renderer_system.rs` (Visual): modelled `renderer_system`.
* `src/visualization/systems/simulation_system.rs` (Visual): modelled `simulation_system`.
* `src/visualization/systems/ui_system.rs` (Builder, Render, Slider, Visual): modelled `ui_system`.
* `src/visualization/utils/arrow.rs` (Render): modelled `add_geometry`.
* `src/visualization/visualization.rs` (Builder, Render, Visual): modelled `with_window_dimensions`, `with_simulation_dimensions`, `with_name`, `with_background_color`, `start`, `setup`, `default`.
* `src/visualization/visualization_state.rs` (Visual): modelled `setup_graphics`, `setup_agent_graphics`; not modelled `before_render` (line 87).

Why the rest is not modelled:

* `src/visualization`: Bevy itself, windows, the path builder behind the arrows, the slider widget and the wasm glue; what the systems do with simulation, sprites, settings and speed is modelled (C128 to C136, C159, C160, C166, C205, C207).
* `ui.rs` drawing functions: layout of widgets in the `tui` crate.
* `store_plot`: drawing with the plotters crate.
* `eq`, `hash`, `default`, `deref` and one-line constructors, `Debug`: derived behaviour, absorbed by the model types (equality by identity is the function `ident`).
* `build_dataframe!`, `extend_dataframe!`, `equivalent_datatype`: definitions of row types; the rows are tuples in the model.
* `agent.rs`, `state.rs` default methods: user code is a parameter of the model.
* Real MPI and cloud transport, system statistics, the numerics of the gaussian process.
* `explore!` with `input_vec` in mode Parallel does not pass the vectors on (it does not compile then).
* poisoning of mutexes; user-defined Clone, Hash, Eq and Display that lock mutexes themselves; fairness of the operating system's scheduler.
* RefCell borrows of user-defined states.
* -0 in Model/Machine (it is 0 there: only a division by -0 would tell them apart, and the discretization is the only divisor)
* tests/model/flockers/bird.rs in Model/MachineFlockers: the field `flag`, which nothing reads; overflow of the i32 `count`
* allocation failure: `Vec::with_capacity` aborts the process if the allocator refuses; only the `capacity overflow` panic is modelled (C190)
* the inner layout of the heap: with NaN among more than two entries the model lets `peek` show any entry (C192)
* the bags of the distributed field on machine floats (Model/MachineField models those of the sequential field), and its exchange of agents, which has no arithmetic
* `explore!` and `evolutionary_search!` called with a computing mode but without the number of repetitions match two arms up to that point; which calls compile is not modelled.

## Axioms of each property theorem

Collected with `Lean.collectAxioms` (what `#print axioms` prints). No theorem depends on anything else.

* no axiom (31 theorems): C24_sparse_empty_grid_panics_partial, C32_sparse_none_panic_witness_partial, C32_sparse_readwrite_loses_partial, C44_publication, C45_asymmetry_partial, C45_asymmetry_remove_node_partial, C46_same_id_after_adding_twice_partial, C46_same_id_after_removal_partial, C48_dangling_edge_partial, C49_exceptions_partial, C50_absent_partial, C50_exceptions_partial, C52_get_edges_none_partial, C52_panics_partial, C56_absent_partial, C71_current, C71_order, C79_documented_example_partial, C80_publication_partial, C134_static, C137_first, C198_sparse_shows_the_old_version_partial, C208_distributed_negation_partial, C219_later_deposits_partial, C253_confused, C269_network_negation_partial, C269_schedule_negation_partial, C270_two_edges_negation_partial, C272_edges_negation_partial, C272_network_negation_partial, C272_schedule_negation_partial.
* `propext` (98 theorems): C10_schedule_once_may_drop_the_agent_partial, C12_time_stalls_partial, C14_parallel_no_threads_partial, C21_alias_witness_partial, C21_out_of_range_aliases_partial, C27_not_interchangeable_partial, C27_readwrite_differs_partial, C27_write_differs_partial, C30_storage_not_kept_partial, C30_update_is_not_lazy_update_partial, C31_dense_not_own_location_partial, C31_dense_wrong_location_partial, C32_dense_none_is_ignored_partial, C32_dense_write_keeps_partial, C46_hnetwork_same_id_partial, C47_absent, C51_short_node_set, C55_absent_partial, C55_false_but_added_partial, C56_exceptions_partial, C60_state_negation_partial, C61_label_negation_partial, C61_no_configuration_negation_partial, C63_grow_negation_partial, C63_shrink_negation_partial, C69_unknown_partial, C71_file, C72_negation_partial, C72_tab_negation_partial, C73_negation_partial, C80_not_isolated_partial, C81_remove_edge_panics, C87_early_end_negation_partial, C87_terminal_single_partial, C88_second_repetition_negation_partial, C88_uneven_end_negation_partial, C90_configurations, C90_longer_negation_partial, C91_dummy_negation_partial, C91_negation_partial, C97_negation_partial, C99_negation_partial, C101_negation_partial, C134_return_partial, C137_repetitions, C146_agents_partial, C146_int2d_partial, C146_real2d_partial, C154_empty_step_exits_partial, C158_break_partial, C166_simulation_and_renderer_conflict, C177_entered_partial, C177_left_partial, C177_returned_partial, C201_growth_negation_partial, C202_newline_negation_partial, C208_cloud_negation_partial, C208_otherwise_partial, C210_documentation_examples_partial, C220_not_any_order_partial, C223_not_scheduled_partial, C224_init_sets_all_partial, C224_only_then_partial, C224_trail_partial, C228_logs_partial, C229_distinct_partial, C229_literal_partial, C233_key_partial, C233_log_negation_partial, C233_no_key_partial, C236_short_negation_partial, C243_loops_negation_partial, C243_parallel_negation_partial, C249_dense_negation_partial, C249_sparse_negation_partial, C250_dense_number_negation_partial, C250_dense_object_negation_partial, C251_confused, C252_panics, C254_confused, C265_again_negation_partial, C265_panic_negation_partial, C265_removal_negation_partial, C266_ahead_negation_partial, C266_ties_negation_partial, C268_removal_negation_partial, C268_twice_negation_partial, C269_hypernetwork_negation_partial, C271_parallel_partial, C271_sequential_partial, C272_hypernetwork_negation_partial, C272_number_publication_negation_partial, C278_empty_negation_partial, C280_panic_negation_partial, C280_repetitions_negation_partial, C282_not_all, C283_jump_negation_partial, C283_ties_negation_partial.
* `Quot.sound`, `propext` (190 theorems): C09_dequeue_exact, C10_schedule_once_fresh_partial, C12_time_advances_below_2_24_partial, C17_reads_stable_between_updates, C20_update_is_lazy_update, C24_sparse_full_grid_never_returns_partial, C24_sparse_number_random_empty_bag_partial, C24_sparse_object_random_empty_bag_partial, C25_sparse_number_grid_is_double_buffered, C26_get_location, C26_get_location_of_nan, C26_iter_values, C27_readwrite_agrees_partial, C31_dense_square_transposes_partial, C31_dense_told_iff_partial, C31_sparse_own_location_partial, C32_sparse_none_panics_partial, C32_sparse_readwrite_partial, C33_sparse_object_grid_is_double_buffered, C34_get_location, C42_negative_multiple_negation_partial, C44_nothing_before_publication, C44_reads_isolated, C46_add_node_exactly_partial, C47_add_edge, C47_seen, C52_no_edges_partial, C53_incomplete_partial, C53_members_partial, C54_no_repeats, C56_remove_object_partial, C59_combinations, C62_ends, C62_no_panic, C62_parallel, C62_sequential, C64_count, C64_workload, C67_overflow_negation_partial, C68_repetition, C68_repetitions, C72_keys_partial, C72_left_right_partial, C72_right_left_partial, C80_reads_isolated_partial, C81_get_edge, C81_get_edge_order, C81_remove_edge, C87_terminal_no_end_partial, C88_mpi_single_partial, C89_long_run_negation_partial, C89_report_partial, C90_sequential_partial, C90_shorter_negation_partial, C94_finite_partial, C94_nan_negation_partial, C94_rows_partial, C96_evaluation_partial, C96_reset_partial, C100_samples_partial, C101_draw_partial, C103_apply_read_differs_partial, C103_not_interchangeable_partial, C103_update_differs_partial, C104_ghost_after_update_partial, C104_ghost_partial, C105_panic_partial, C105_removed_object_stays_partial, C106_bags_keep_old_objects_partial, C107_lost_object_partial, C108_emptied_bag_not_listed_partial, C116_differences_partial, C117_removal_visible_partial, C120_ghost_partial, C121_reuse_partial, C122_exceptions_partial, C123_may_choose_itself_partial, C123_reused_ids_partial, C124_stale_edges_partial, C125_messages, C125_received, C125_repetitions_in_order, C125_steps_in_order, C126_calm_partial, C126_last_repetition_lost_partial, C126_last_step_lost_partial, C127_calm_partial, C127_only_then_partial, C127_quit_lost_partial, C128_size, C134_beginning_partial, C137_selection, C146_nan_partial, C148_individual_received, C149_alike_partial, C158_list_partial, C163_closure_on_own_shard_hangs_partial, C163_two_grids_can_hang_partial, C165_nested_macros_hang_partial, C166_simulation_and_renderer_could_hang, C167_no_borrow_error, C176_scope_ends, C176_sequential, C176_sequential_same, C177_drawing_fails_partial, C177_entering_fails_partial, C177_leaving_fails_partial, C177_returns_partial, C177_simulation_panics_partial, C177_unusual_partial, C178_alias_partial, C179_overwrites_partial, C179_panics_partial, C198_sparse_shows_the_newest_partial, C199_compare_partial, C199_good_negation_partial, C199_one_left_negation_partial, C200_best_partial, C200_first_negation_partial, C204_steady_partial, C207_all_given_partial, C207_defaults_negation_partial, C207_settings_partial, C208_modes_partial, C215_conflict_partial, C219_first_deposit_partial, C219_sparse_trail_partial, C220_conflict_partial, C220_order_partial, C223_false_partial, C223_ignored_partial, C224_same_runs_partial, C227_table_exactly_partial, C227_two_lists_partial, C229_texts_partial, C230_meaning_partial, C233_only_user_partial, C233_prefix_partial, C233_results_partial, C233_stops_partial, C236_directed_negation_partial, C239_alone_partial, C245_orderings_partial, C245_retime_partial, C248_dense_negation_partial, C248_dense_partial, C248_sparse_negation_partial, C251_dense, C251_schedule, C251_sparse, C253_history, C254_history, C255_repeated, C257_merged_negation_partial, C257_order_negation_partial, C258_grid_negation_partial, C259_grid_negation_partial, C261_computer_partial, C261_runs_partial, C261_same_partial, C261_saved_partial, C264_names_partial, C265_parallel_removal_negation_partial, C266_parallel_exit_negation_partial, C269_dense_partial, C269_hypernetwork_partial, C269_parallel_negation_partial, C269_sparse_partial, C270_parallel_negation_partial, C271_distributed_negation_partial, C271_distributed_partial, C272_dense_number_partial, C272_dense_object_partial, C272_hypernetwork_partial, C272_map_negation_partial, C272_map_partial, C272_network_partial, C272_parallel_number_partial, C272_parallel_object_partial, C272_remove_edge_partial, C272_schedule_partial, C272_sparse_number_partial, C272_sparse_object_partial, C279_ties_negation_partial, C279_times_negation_partial, C280_first_repetition_partial, C280_fresh_repetitions_partial, C280_simulation_partial, C283_parallel_negation_partial, C284_parallel_times_decide.
* `Classical.choice`, `Quot.sound`, `propext` (794 theorems): C01_step_runs_exactly_the_due_agents, C02_step_runs_in_ordering_order, C03_pending_after_step, C03_pending_after_step_entries, C04_clock_is_batch_time, C04_clock_never_decreases, C05_repeating_agent_runs_every_unit, C06_order_within_step, C06_step_counter_and_hooks, C07_empty_step, C08_ids_are_consecutive, C08_registration_succeeds, C09_dequeued_agent_never_runs, C10_schedule_once_pending_partial, C11_batch_independent_of_tie_breaking, C11_run_independent_of_tie_breaking, C12_advances_iff_partial, C12_all_large_times_stall_partial, C12_integer_times_advance_exactly_partial, C12_stalled_agent_starves_later_agents_partial, C13_batches_partition, C13_each_event_once, C13_interleaving_independent, C14_parallel_runs_agents_not_due_partial, C14_parallel_runs_due_agents_partial, C15_independent_of_hash_and_shards, C15_sharded_map_is_a_pair_of_plain_maps, C16_no_call_panics, C16_shard_index_in_bounds, C17_lazy_update_publishes_and_clears, C18_update_keeps_removed_keys_partial, C18_update_partial, C19_insert_never_returns_the_old_value_partial, C19_insert_partial, C20_dense_number_grid_is_double_buffered, C21_no_aliasing_in_range_partial, C21_rejected_locations_partial, C22_get_empty_bags, C22_get_location, C22_get_location_of_nan, C22_iter_values, C23_apply_keeps_shape, C23_apply_read, C23_apply_readwrite, C23_apply_write, C24_dense_number_every_empty_cell_possible_partial, C24_dense_number_random_empty_bag_partial, C24_dense_object_random_empty_bag_partial, C25_update_is_lazy_update, C26_get_empty_bags, C27_dense_and_sparse_agree_partial, C28_dense_object_grid_is_double_buffered, C28_no_object_twice_in_a_bag, C29_get_empty_bags, C29_get_location, C29_iter_objects, C30_apply_panics_after_update_partial, C30_storage_grows_partial, C30_update_publishes_partial, C32_dense_read_partial, C32_dense_readwrite_partial, C32_dense_write_partial, C34_get_empty_bags, C34_iter_objects, C35_field_history, C36_index_in_storage, C36_same_storage_iff_same_square, C37_large_distance_negation_partial, C37_neighbors_published_partial, C37_neighbors_sound_partial, C37_within_a_cell_partial, C38_circle_in_cell_negation_partial, C38_guaranteed_radius_partial, C38_neighbors_complete_partial, C38_no_wraparound_negation_partial, C38_rounded_radius_negation_partial, C38_upper_border_negation_partial, C39_itself_twice_partial, C39_neighbors_once_partial, C39_twice_partial, C39_wrapped_search_negation_partial, C40_no_panic, C40_relaxed_contains_exact, C41_toroidal_distance, C41_toroidal_distance_antisymmetric, C41_toroidal_distance_minimal, C41_toroidal_distance_shift, C41_toroidal_transform, C42_t_transform_exact_partial, C43_count_before_first_update, C43_density_fixed, C43_get_empty_bags, C43_num_objects, C45_remove_edge_exactly_partial, C45_symmetric_partial, C45_symmetric_without_remove_node_partial, C46_hnetwork_ids_unique_partial, C46_ids_unique_careful_partial, C46_ids_unique_partial, C48_edges_known_partial, C48_remove_node_exactly_partial, C49_directed_partial, C49_no_edge_partial, C49_undirected_parallel_partial, C49_undirected_partial, C50_remove_node_partial, C51_graph, C51_simple_connected, C53_complete_partial, C55_add_edge_partial, C55_any_slice_partial, C55_repeated_partial, C57_location, C57_single, C57_tiles, C58_corner_negation_partial, C58_exactly_partial, C58_one_border_partial, C59_empty_negation_partial, C59_parallel_partial, C59_sequential_partial, C60_fresh_partial, C60_label_negation_partial, C60_rows_partial, C61_no_repetition_negation_partial, C61_partial, C61_single_partial, C62_empty_panics, C63_pairs_partial, C63_rows, C63_search_partial, C63_split, C65_comparisons, C65_monotone, C65_sample, C65_search, C65_unique, C66_acquisition_negation_partial, C66_acquisition_partial, C66_improvement_partial, C66_negation_partial, C66_no_points_negation_partial, C66_search_partial, C67_float_panics_partial, C67_float_partial, C67_int_partial, C67_rounding_negation_partial, C67_zero_negation_partial, C69_bounds_partial, C69_existing_partial, C69_negation_partial, C69_points_partial, C70_files_partial, C70_first_negation_partial, C70_late_negation_partial, C70_names_negation_partial, C70_names_partial, C70_second_negation_partial, C72_start_partial, C73_deterministic, C73_reported_equal_partial, C73_same_shape_partial, C74_outside_field_negation_partial, C74_random_empty_bag_partial, C75_iter_objects, C76_get_all_events, C76_get_all_events_after_agents, C77_step_threads_state_and_schedule, C78_get_edge, C78_get_edge_symmetric, C79_histories_partial, C79_incoming_exactly_partial, C79_outgoing_exactly_partial, C79_remove_incoming_partial, C79_remove_outgoing_partial, C79_undirected_partial, C82_neighbors_exact, C82_other_id_negation, C82_own_block, C83_delivery, C83_lists_present, C83_mutual, C83_no_deadlock, C84_exactly_partial, C84_halo_reaches_partial, C84_three_processes_negation_partial, C85_bags_are_a_field, C85_insert_read, C85_relaxed, C85_search_is_field_search, C85_search_sound, C86_as_if_not_removed_partial, C86_interior_partial, C86_removed_agent_sent_negation_partial, C90_panics_exactly_partial, C90_parallel_partial, C90_truncates_partial, C91_row_partial, C92_few_negation_partial, C92_small_negation_partial, C93_best_partial, C93_negation_partial, C93_search_partial, C94_negation_partial, C95_samples, C96_negation_partial, C97_panic_partial, C97_position_partial, C98_roundtrip, C99_no_csv_partial, C99_terminal_partial, C100_few_partial, C100_negation_partial, C102_apply_to_all_values, C102_parallel_number_grids_are_double_buffered, C102_size, C103_dense_agrees_partial, C103_sparse_agrees_partial, C104_bags_and_locations_partial, C104_each_object_in_its_bag_partial, C104_ghosts_exactly_partial, C104_iter_objects_partial, C105_remove_object_partial, C105_remove_right_after_lazy_update_panics_partial, C105_removed_if_not_moved_partial, C106_apply_to_all_values_partial, C107_concurrent_placements_partial, C108_empty_bags_partial, C108_listed_exactly_partial, C109_same_answers_as_sequential_partial, C109_update_differs_partial, C110_first_step_panics_partial, C110_search_panics_iff_nothing_published_partial, C111_get_location, C112_num_objects, C113_object_in_two_bags_partial, C113_one_bag_exactly_partial, C113_one_bag_per_object_partial, C113_update_leaves_ghosts_partial, C114_concurrent_placements_partial, C114_lost_object_partial, C115_panic_partial, C115_unbuffered_reads_partial, C116_same_answers_partial, C116_same_results_partial, C117_lists_isolated, C117_nothing_before_publication, C117_objects_isolated, C117_reads_isolated_partial, C118_never_forgets, C118_publication, C119_nothing_removed_partial, C119_then_remove_edge_panics_partial, C119_written_cleared_partial, C120_remove_node_partial, C121_add_node_exactly_partial, C121_ids_partial, C122_both_ways_partial, C122_edges_fit_partial, C123_absent_partial, C123_prob_edges_partial, C124_graph_partial, C124_second_node_partial, C128_pixels, C129_counter, C129_paused, C129_run, C129_run_without_stop, C129_stop, C130_end_ignored_partial, C130_until_the_end_partial, C131_beginning_partial, C131_frames_partial, C131_newcomers_not_drawn_partial, C131_no_new_sprite_partial, C132_drift_partial, C132_place_partial, C132_visibility_ignored_partial, C133_first_place_partial, C133_objects_partial, C133_present_partial, C133_removed_stays_partial, C134_current_partial, C135_aligned, C135_fills, C136_answers, C136_loaded_once, C137_switches, C138_birds_move_at_once, C138_repetitions, C139_parallel_birds_move_at_once, C139_parallel_steps_complete, C139_same_flock, C140_flat_world_bird_elsewhere_partial, C140_flat_world_exactly_partial, C140_flat_world_panics_partial, C141_parallel_steps_complete, C141_parallel_synchronous, C141_repetitions, C141_synchronous, C142_dense_grid, C142_parallel_grid, C142_sparse_grid, C143_field, C143_parallel_field, C144_fields_agree, C144_grids_agree, C145_matrix_partial, C145_panics_partial, C145_removals_partial, C146_first_partial, C146_priority_partial, C146_schedule_partial, C147_explore_row, C147_file, C147_row, C148_row_received, C149_one_file_partial, C149_pictures_partial, C149_seven_series_partial, C150_gone, C150_once_in_every_step, C150_pending_after_step, C151_order_within_step, C151_step_counter_and_hooks, C152_clock_is_earliest_time, C152_clock_never_decreases, C153_ids_are_consecutive, C154_no_second_step_partial, C155_all_points_partial, C155_label_partial, C155_negative_partial, C155_room_partial, C156_alike_partial, C156_eight_partial, C156_negation_partial, C157_bars_partial, C157_negation_partial, C158_columns_partial, C158_file_partial, C158_readable_partial, C159_drawn_at_once, C159_textures_are_current, C160_arrow, C161_field_calls_finish, C162_parallel_steps_finish, C164_terminal_finishes, C165_macros_finish_partial, C166_systems_finish, C168_neighbours_while_visiting_partial, C168_nested_call_panics_iff_partial, C169_birds_keep_speed, C169_parallel_birds_keep_speed, C170_alone_partial, C170_heading_not_mean_partial, C170_steering_partial, C171_below_dim_negation_partial, C171_lands_on_dim_partial, C171_nonnegative_partial, C171_rounded_partial, C172_antisymmetric, C172_half_turn, C172_ieee_rounding, C172_shortest_way, C173_corner_panics_partial, C173_history_partial, C173_rounded_square_partial, C174_guaranteed_radius_partial, C174_relaxed_partial, C174_seam_negation_partial, C174_sound_partial, C174_too_far_negation_partial, C175_wrapped_positions, C176_every_order, C176_parallel, C176_parallel_same, C178_number_grid_partial, C178_object_grid_partial, C178_usable_iff_partial, C179_counts_agents_partial, C180_corners_partial, C180_not_empty_partial, C180_not_there_partial, C180_unrounded_partial, C181_arithmetic_partial, C181_conversions_partial, C181_infinite_refused_partial, C181_infinity_stored_partial, C181_nan_found_partial, C181_nan_stored_partial, C181_numbers_partial, C182_dividing_line_partial, C182_guaranteed_radius_partial, C182_huge_distance_partial, C182_sound_partial, C183_relaxed_nan_partial, C183_search_nan_partial, C183_wrap_infinity_partial, C183_wrap_partial, C184_arranged, C184_dense_grid, C184_order_matters, C184_parallel_arranged, C184_parallel_grid, C184_parallel_steps_complete, C184_repetitions, C185_machine_field, C185_repetitions, C186_draw_partial, C186_flock_lost_partial, C186_flock_stays_inside_partial, C186_nan_spreads_partial, C186_nan_stays_partial, C186_new_birds_partial, C186_parallel_flock_stays_inside_partial, C187_order_matters_partial, C187_parallel_same_flock_partial, C187_same_flock_partial, C188_far_shown_partial, C188_history_partial, C188_nan_shown_partial, C189_outside_partial, C189_same_answers_partial, C190_affordable_partial, C190_asked_partial, C190_infinite_partial, C190_wraps_partial, C191_parallel_machine_field, C191_steps_complete, C192_due_partial, C192_nan_first_partial, C192_together_partial, C192_two_partial, C193_never_partial, C193_reached_partial, C193_served_partial, C193_starves_partial, C193_stuck_iff_partial, C193_stuck_partial, C193_waits_iff_partial, C194_nobody_lost, C195_gap_partial, C195_location_partial, C195_nan_partial, C196_halo_partial, C196_layout_partial, C196_lost_neighbours_partial, C196_neighbors_partial, C197_blocks, C197_mutual, C197_no_deadlock, C198_dense_shows_the_newest_partial, C198_field_exactly_partial, C198_field_shows_the_newest_partial, C198_field_shows_the_old_version_partial, C198_sparse_exactly_partial, C200_floats_partial, C200_later_negation_partial, C201_ends_partial, C201_order_negation_partial, C201_search_partial, C202_backslash_negation_partial, C202_individuals_partial, C202_quote_negation_partial, C203_before_negation_partial, C203_behind_negation_partial, C203_first_partial, C203_progress_partial, C203_witness_negation_partial, C204_order_partial, C204_panic_negation_partial, C204_random_negation_partial, C205_frames, C205_keeps, C205_moves, C206_agent_negation_partial, C206_agents_partial, C206_cells_partial, C206_locations_partial, C206_numbers_partial, C206_priorities_partial, C206_reading_partial, C206_zero_nan_negation_partial, C207_effect_partial, C207_window_negation_partial, C209_fewer_processors_merge_partial, C209_fewer_processors_partial, C209_lost_partial, C209_more_processors_partial, C209_unchanged_partial, C210_documented_partial, C210_get_edges_partial, C211_count_partial, C211_never_documented_partial, C212_degrees, C212_parallel, C212_textbook, C213_agree, C213_attachment, C213_network, C213_parallel_attachment, C213_parallel_network, C213_repetitions, C214_parallel_spread, C214_spread, C215_agents_partial, C215_pairs_partial, C216_agree, C216_hypernetwork, C216_parallel_hypernetwork, C216_repetitions, C217_agree, C217_dense_cells, C217_parallel_cells, C217_sparse_cells, C218_dead_cell_partial, C218_nobody_dies_partial, C218_parallel_update_partial, C219_dense_trail_partial, C219_parallel_trail_partial, C221_generations, C221_parallel_completes, C221_parallel_generations, C221_repetitions, C222_dense_grid, C222_field, C222_parallel_field, C222_parallel_grid, C222_sparse_grid, C223_nobody_new_partial, C223_parallel_nobody_new_partial, C224_fields_partial, C225_long_steps_negation_partial, C225_order_negation_partial, C225_owners_partial, C225_same_agents_partial, C225_three_processes_negation_partial, C226_same_sight_partial, C226_short_halo_negation_partial, C226_three_processes_negation_partial, C227_one_entry_only_if_partial, C228_emptied_partial, C228_kept_partial, C228_later_repetitions_partial, C228_lost_partial, C228_names_stay_partial, C228_pictures_partial, C229_file_partial, C229_header_partial, C229_numbers_partial, C229_reading_partial, C230_early_negation_partial, C230_ends_partial, C230_lucky_partial, C231_one_process_partial, C231_same_agents_partial, C231_same_point_negation_partial, C231_self_negation_partial, C232_home_negation_partial, C232_own_tab_partial, C234_added_before_negation_partial, C234_piles_up_negation_partial, C234_repetition_partial, C234_witness_negation_partial, C235_bytes_partial, C235_longer_first_partial, C235_order_negation_partial, C235_rows_partial, C235_same_length_partial, C235_shorter_first_negation_partial, C236_across_partial, C236_add_prob_edge_negation_partial, C236_draws_partial, C236_parallel_partial, C236_sequential_partial, C237_choice_partial, C237_formula_partial, C237_new_point_partial, C237_no_number_partial, C237_no_variance_partial, C237_prefers_partial, C237_sure_negation_partial, C237_undominated_partial, C238_dense_number_partial, C238_dense_object_partial, C238_emptied_negation_partial, C238_field_partial, C238_sparse_number_partial, C238_sparse_object_parallel_partial, C238_sparse_object_partial, C239_apply_each_partial, C239_clear_each_partial, C239_clear_negation_partial, C239_clear_shrinking_partial, C239_is_empty_negation_partial, C239_is_empty_one_way_partial, C239_len_growing_partial, C239_len_shrinking_partial, C239_single_keys_partial, C239_w_keys_each_partial, C239_w_keys_negation_partial, C240_balance, C240_power_of_two, C240_shape, C240_sizes, C241_border_negation_partial, C241_exact_negation_partial, C241_exact_partial, C241_relaxed_partial, C242_diameter_partial, C242_homogeneous_partial, C242_metric_partial, C242_single_negation_partial, C242_single_symmetric_partial, C242_single_triangle_partial, C243_again_negation_partial, C243_degrees_partial, C243_directed_partial, C244_cut_negation_partial, C244_exact_partial, C244_relaxed_partial, C244_seam_negation_partial, C244_square_negation_partial, C245_later_partial, C245_single_negation_partial, C245_whole_partial, C246_distinct_orderings, C246_order_of_scheduling, C246_ties_show, C247_exact_partial, C247_powers_of_two_partial, C247_small_negation_partial, C247_ten_negation_partial, C248_field_negation_partial, C248_field_partial, C248_sparse_partial, C249_dense_partial, C249_field_negation_partial, C249_field_partial, C249_sparse_partial, C250_dense_number_partial, C250_dense_object_partial, C250_field_negation_partial, C250_field_partial, C250_sparse_number_partial, C250_sparse_object_partial, C251_field, C252_centred, C252_popup, C253_attachment, C255_enumeration, C255_sum, C256_names, C256_order, C256_others, C256_same, C257_attachment_partial, C257_fields_partial, C257_networks_partial, C257_number_grids_partial, C257_object_grids_partial, C258_field_negation_partial, C258_fields_partial, C258_no_panic_partial, C258_number_grids_partial, C258_object_grids_partial, C259_fields_partial, C259_no_panic_partial, C259_object_grids_partial, C260_fields, C260_machine, C260_machine_parallel, C260_number_grids, C260_object_grids, C261_cloud_negation_partial, C261_cloud_partial, C261_cloud_repeats_partial, C261_distributed_partial, C262_computer, C262_distributed, C262_last, C263_border_negation_partial, C263_exact_negation_partial, C263_exact_partial, C263_parallel_exact_partial, C263_parallel_relaxed_partial, C263_relaxed_partial, C264_distinct_orderings_partial, C264_nan_negation_partial, C264_order_of_scheduling_partial, C264_orderings_partial, C264_retime_partial, C265_parallel_partial, C265_parts_partial, C266_machine_partial, C266_machine_together_partial, C266_nan_negation_partial, C266_parallel_partial, C266_parallel_workers_negation_partial, C266_together_partial, C266_watchers_partial, C267_distributed_partial, C267_exact_partial, C267_machine_partial, C267_negative_negation_partial, C267_overflow_negation_partial, C267_parallel_partial, C268_no_panic_partial, C268_parts_partial, C269_distributed_negation_partial, C269_distributed_partial, C269_field_partial, C269_machine_partial, C269_network_partial, C269_parallel_partial, C269_placed_negation_partial, C269_schedule_partial, C270_answers_partial, C270_ends_partial, C270_parallel_partial, C271_bayesian_negation_partial, C271_bayesian_partial, C271_cloud_negation_partial, C271_cloud_partial, C271_random_negation_partial, C271_random_partial, C272_field_partial, C272_machine_partial, C272_object_publication_negation_partial, C272_parallel_negation_partial, C272_parallel_network_partial, C272_parallel_publication_partial, C272_placed_negation_partial, C273_dense_cells_partial, C273_dense_grid_partial, C273_field_partial, C273_parallel_cells_partial, C273_parallel_field_partial, C273_parallel_grid_partial, C273_sparse_cells_partial, C273_sparse_grid_partial, C273_torus_negation_partial, C274_hypernetwork, C274_network, C274_parallel_hypernetwork, C274_parallel_network, C275_dense_cells_partial, C275_dense_grid_partial, C275_mirrored_field_partial, C275_mirrored_parallel_field_partial, C275_parallel_cells_partial, C275_parallel_grid_partial, C275_rescaled_field_partial, C275_shifted_field_negation_partial, C275_sparse_cells_partial, C275_sparse_grid_partial, C276_hypernetwork, C276_network, C276_parallel_hypernetwork, C276_parallel_network, C277_across_the_border, C277_dense_grid, C277_parallel_grid, C277_parallel_simulation, C277_searches, C277_simulation, C277_sparse_grid, C278_distributed_partial, C278_matched_partial, C278_order_partial, C278_processes_partial, C278_repetitions_negation_partial, C278_repetitions_partial, C278_sequential_repetitions_partial, C278_values_partial, C279_parallel_partial, C279_together_partial, C279_two_models_partial, C280_bayesian_partial, C280_genetic_cloud_partial, C280_genetic_mpi_partial, C280_genetic_parallel_partial, C280_genetic_partial, C280_random_partial, C281_fixed, C281_fixed_matched, C281_order, C281_order_matched, C282_matched, C282_more_values, C283_later_partial, C284_orderings_decide, C284_parallel, C284_sequential.
