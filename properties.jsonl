{"id": "C01", "title": "A step runs exactly the due agents", "statement": "One call of Schedule::step runs (before_step, step, after_step) exactly the agents whose scheduled time equals the smallest time pending when the state's before_step hook has returned: each of them exactly once, and no agent scheduled for a later time.", "quantifier": "every queue content, every set of times and orderings, every behaviour of agents and state hooks, every way the priority queue may break ties", "why_tests_cant": "the queue content, the tie-breaking of the heap and the user callbacks are unbounded; a test fixes one of each", "anchors": ["src/engine/schedule.rs: Schedule::step", "src/engine/priority.rs: Ord for Priority", "src/engine/agentimpl.rs: AgentImpl"]}
{"id": "C02", "title": "Agents of one batch run in ordering order", "statement": "Within one Schedule::step the agents run in non-decreasing order of the ordering value they were scheduled with.", "quantifier": "every queue content and every heap tie-break", "why_tests_cant": "heap order depends on insertion history; sampling a few histories says nothing about the others", "anchors": ["src/engine/schedule.rs: Schedule::step", "src/engine/priority.rs: Ord for Priority"]}
{"id": "C03", "title": "What stays scheduled after a step", "statement": "After the agents of a step have run, the pending agents are exactly: those that were due later, unchanged, and, for each repeating agent of the batch that does not report is_stopped, the same agent (with the mutations its own step made, same id, still repeating) at its time + 1 with the same ordering. One-shot agents and stopped agents are gone.", "quantifier": "every queue content with one entry per id, every agent behaviour", "why_tests_cant": "needs every mixture of repeating, one-shot and stopping agents and every batch size", "anchors": ["src/engine/schedule.rs: Schedule::step, schedule_once", "src/engine/agent.rs: Agent::is_stopped"]}
{"id": "C04", "title": "The simulation clock never runs backwards", "statement": "Schedule.time after a step is the time of the batch that ran, and over any number of steps it never decreases as long as the state hooks only schedule agents at times not before the current clock.", "quantifier": "every number of steps, every sequence of scheduling, dequeue and step calls", "why_tests_cant": "a history property: must hold along every unbounded sequence of operations", "anchors": ["src/engine/schedule.rs: Schedule::step"]}
{"id": "C05", "title": "A repeating agent runs once per time unit", "statement": "A repeating agent scheduled at time t that never stops is run exactly at times t, t+1, t+2, ... without gap or repetition, up to the current clock, together with any number of other repeating agents started at other times.", "quantifier": "every population of repeating agents, every start times and orderings, every number of steps", "why_tests_cant": "the statement ranges over unboundedly long runs and arbitrary populations", "anchors": ["src/engine/schedule.rs: Schedule::step, schedule_repeating"]}
{"id": "C06", "title": "Step counter and hook order", "statement": "The k-th call of step leaves Schedule.step = k; update(0) is called only before the first step, before any other hook; every step calls before_step once, then the agents, then after_step once, then update(k), in this order, also when no agent is pending.", "quantifier": "every number of steps and every behaviour of the hooks", "why_tests_cant": "a trace property of arbitrarily long runs with arbitrary callbacks", "anchors": ["src/engine/schedule.rs: Schedule::step", "src/engine/state.rs: State"]}
{"id": "C07", "title": "A step with nothing scheduled is harmless", "statement": "If nothing is pending after before_step, the step runs no agent, leaves the clock unchanged, still calls after_step and update and advances the step counter; agents scheduled later by a hook are run by later steps.", "quantifier": "every state and hook behaviour", "why_tests_cant": "needs all hook behaviours and all reachable empty states", "anchors": ["src/engine/schedule.rs: Schedule::step"]}
{"id": "C08", "title": "schedule_repeating hands out fresh ids", "statement": "All ids assigned by schedule_repeating / distributed_schedule_repeating on one Schedule are pairwise distinct, equal to 0,1,2,... in call order, and as long as only such ids are used the call always reports success (true) and adds exactly one pending agent.", "quantifier": "every history of schedule_repeating, distributed_schedule_repeating, dequeue and step calls (fewer than 2^32 registrations)", "why_tests_cant": "unbounded interleavings of registration, removal and stepping", "anchors": ["src/engine/schedule.rs: schedule_repeating, distributed_schedule_repeating, agent_ids_counting"]}
{"id": "C09", "title": "dequeue removes exactly the named agent", "statement": "dequeue(agent,id) returns true iff an agent with that id is pending, afterwards no agent with that id is pending, and every other pending agent keeps its time and ordering; a dequeued agent is not run by later steps unless scheduled again.", "quantifier": "every queue content and id, every later run", "why_tests_cant": "requires all histories before and after the removal", "anchors": ["src/engine/schedule.rs: Schedule::dequeue"]}
{"id": "C10", "title": "schedule_once schedules the agent it is given", "statement": "After schedule_once(agent, t, o) the given agent is pending at (t,o) and no other pending agent is affected.", "quantifier": "every queue content, every agent id", "why_tests_cant": "depends on id coincidences with any earlier registration", "anchors": ["src/engine/schedule.rs: schedule_once", "src/engine/agentimpl.rs: PartialEq for AgentImpl"]}
{"id": "C11", "title": "Runs do not depend on the heap's tie-breaking when priorities are distinct", "statement": "If no two pending agents ever share both time and ordering, the whole run (which agents run, in which order, on which states) is the same for every correct priority-queue implementation; in general the set of agents run at each step is the same.", "quantifier": "every two priority-queue implementations, every run length", "why_tests_cant": "quantifies over implementations of the queue", "anchors": ["src/engine/schedule.rs: Schedule::step", "src/engine/priority.rs: Ord for Priority"]}
{"id": "C12", "title": "Time keeps advancing for repeating agents", "statement": "Whenever a repeating agent is rescheduled its new time is strictly later than the time it just ran at (so two consecutive runs are never at the same clock value).", "quantifier": "every single-precision time value", "why_tests_cant": "fails only past 2^24 time units, far outside any test run", "anchors": ["src/engine/schedule.rs: Schedule::step (time + 1.0)"]}
{"id": "C13", "title": "Parallel step: every event handled once, whatever the thread interleaving", "statement": "With the parallel feature, one step puts every pending event into exactly one thread's batch, each event is run exactly once, and the set of re-scheduled agents and times is the same for every interleaving of the worker threads when agents do not share mutable state.", "quantifier": "every number of events and threads, every interleaving of the workers", "why_tests_cant": "thread schedules cannot be enumerated by tests", "anchors": ["src/engine/schedule.rs: Schedule::step (feature parallel)"]}
{"id": "C14", "title": "Parallel step runs only due agents", "statement": "With the parallel feature a step runs the same agents as the sequential step: only those whose time equals the smallest pending time.", "quantifier": "every queue content", "why_tests_cant": "needs queues with mixed times, every thread count", "anchors": ["src/engine/schedule.rs: Schedule::step (feature parallel)"]}
{"id": "C15", "title": "The sharded map is observably a pair of plain maps", "statement": "Over any history of insert, remove, get_read, get_write, lazy_update, update, clear, len, r_len, keys, w_keys, DBDashMap answers exactly as one (read map, write map) pair would, independent of the hash function and of the number of shards; len counts each key once.", "quantifier": "every hash function, every shard count, every operation history", "why_tests_cant": "the hash is randomly seeded per process and the shard count depends on the CPU count", "anchors": ["src/utils/dbdashmap.rs: insert, remove, get_read, get_write, lazy_update, update, len, r_len, keys, w_keys, clear"]}
{"id": "C16", "title": "Shard index is always in bounds", "statement": "determine_shard(hash) is smaller than the number of shards for every 64-bit hash value.", "quantifier": "all 2^64 hash values and every machine's CPU count", "why_tests_cant": "2^64 hashes times all CPU counts", "anchors": ["src/utils/dbdashmap.rs: determine_shard, shard_amount, ncb"]}
{"id": "C17", "title": "lazy_update publishes the write map and empties it", "statement": "After lazy_update the read side holds exactly what was on the write side and the write side is empty; until then no insert or remove changes what get_read, keys, values or r_len return.", "quantifier": "every history", "why_tests_cant": "every interleaving of reads, writes and updates", "anchors": ["src/utils/dbdashmap.rs: lazy_update, insert, remove, get_read"]}
{"id": "C18", "title": "update makes the read side equal to the write side", "statement": "After update, get_read(k) returns for every key what get_write(k) returns.", "quantifier": "every history, in particular those containing remove", "why_tests_cant": "needs histories that remove a key that was published earlier", "anchors": ["src/utils/dbdashmap.rs: update"]}
{"id": "C19", "title": "insert returns the value it replaces", "statement": "DBDashMap::insert returns the value previously stored on the write side under that key, as a map's insert does.", "quantifier": "every map content and key", "why_tests_cant": "all contents", "anchors": ["src/utils/dbdashmap.rs: insert"]}
{"id": "C20", "title": "DenseNumberGrid2D is a double-buffered cell map", "statement": "For in-range locations, over any history of set_value_location, remove_value_location, update and lazy_update: get_value returns the value written last to that cell before the most recent update (None if none or removed), get_value_unbuffered the value written last since it, and other cells are never affected.", "quantifier": "every grid size, every history of operations, every in-range location", "why_tests_cant": "unbounded histories over all cells", "anchors": ["src/engine/fields/dense_number_grid_2d.rs: set_value_location, remove_value_location, get_value, get_value_unbuffered, update, lazy_update"]}
{"id": "C21", "title": "Distinct cells never alias in a dense grid", "statement": "Two different locations never share storage: a write to one location is never visible at another, and a location outside the grid is rejected.", "quantifier": "every width, height and pair of locations", "why_tests_cant": "the aliasing pair depends on the grid height", "anchors": ["src/engine/fields/dense_number_grid_2d.rs: set_value_location, get_value (index x*height+y)", "src/engine/fields/dense_object_grid_2d.rs: set_object_location"]}
{"id": "C22", "title": "Dense number grid queries are exact", "statement": "get_location returns a cell holding the value, the first in column-major order, and None iff no cell holds it; get_empty_bags lists exactly the empty cells once each; iter_values visits exactly the occupied cells once each.", "quantifier": "every grid content and size", "why_tests_cant": "all contents", "anchors": ["src/engine/fields/dense_number_grid_2d.rs: get_location, get_empty_bags, iter_values"]}
{"id": "C23", "title": "apply_to_all_values on the dense number grid", "statement": "READ maps every published value in place and leaves the write buffer; WRITE writes closure(published value) for every published cell and leaves other write cells and the read buffer; READWRITE applies the closure to the newest value of each cell (written this step if any, else published) and stores it in the write buffer, leaving the read buffer.", "quantifier": "every grid content, closure and option", "why_tests_cant": "closures and contents are unbounded", "anchors": ["src/engine/fields/dense_number_grid_2d.rs: apply_to_all_values", "src/engine/fields/grid_option.rs: GridOption"]}
{"id": "C24", "title": "get_random_empty_bag returns an empty in-range cell, or None iff there is none", "statement": "On the number and object grids get_random_empty_bag always returns: Some(empty in-range cell) when an empty cell exists and None otherwise, whatever the random source yields.", "quantifier": "every grid content, every random stream", "why_tests_cant": "random streams and the full grid (the sparse versions search by rejection) cannot be exhausted by tests", "anchors": ["src/engine/fields/dense_number_grid_2d.rs: get_random_empty_bag", "src/engine/fields/sparse_number_grid_2d.rs: get_random_empty_bag", "src/engine/fields/dense_object_grid_2d.rs: get_random_empty_bag", "src/engine/fields/sparse_object_grid_2d.rs: get_random_empty_bag"]}
{"id": "C25", "title": "SparseNumberGrid2D is a double-buffered cell map", "statement": "Over any history of set_value_location, remove_value_location, update and lazy_update, SparseNumberGrid2D answers get_value / get_value_unbuffered exactly as a (published, current) pair of maps from locations to values, for all locations, and update and lazy_update are observationally the same.", "quantifier": "every history, every location, every hash-map iteration order", "why_tests_cant": "unbounded histories and hash seeds", "anchors": ["src/engine/fields/sparse_number_grid_2d.rs: set_value_location, remove_value_location, get_value, update, lazy_update"]}
{"id": "C26", "title": "Sparse number grid queries are exact", "statement": "get_location returns a location that holds the value and None iff no location holds it; get_empty_bags lists exactly the in-range locations that hold nothing, once each; iter_values visits exactly the stored pairs once each.", "quantifier": "every content and hash order", "why_tests_cant": "hash iteration order is random", "anchors": ["src/engine/fields/sparse_number_grid_2d.rs: get_location, get_empty_bags, iter_values"]}
{"id": "C27", "title": "Dense and sparse number grids are interchangeable", "statement": "For the same in-range history, including apply_to_all_values with any option, DenseNumberGrid2D and SparseNumberGrid2D answer every query identically.", "quantifier": "every grid size, every history of in-range operations, every closure", "why_tests_cant": "an equivalence of two implementations over all histories", "anchors": ["src/engine/fields/dense_number_grid_2d.rs: apply_to_all_values", "src/engine/fields/sparse_number_grid_2d.rs: apply_to_all_values"]}
{"id": "C28", "title": "DenseGrid2D is a double-buffered bag map", "statement": "For in-range locations and any history of set_object_location, remove_object_location and lazy_update, get_objects returns the bag of objects placed and not removed before the last update (newest last, no object twice in one bag, None iff empty), get_objects_unbuffered the bag placed since; other cells are unaffected and reads never see writes of the current step.", "quantifier": "every grid size, history and location", "why_tests_cant": "unbounded histories", "anchors": ["src/engine/fields/dense_object_grid_2d.rs: set_object_location, remove_object_location, get_objects, get_objects_unbuffered, lazy_update"]}
{"id": "C29", "title": "Dense object grid queries are exact", "statement": "get_location(o) returns a cell whose published bag holds o (the first in column-major order) and None iff no bag holds it; get_empty_bags lists exactly the cells with an empty published bag; iter_objects visits every (cell, object) pair of the published state exactly once.", "quantifier": "every grid content", "why_tests_cant": "all contents", "anchors": ["src/engine/fields/dense_object_grid_2d.rs: get_location, get_empty_bags, iter_objects"]}
{"id": "C30", "title": "DenseGrid2D::update publishes the write state", "statement": "After update, reads return exactly what was written, as with lazy_update, and repeated updates keep the grid usable (the storage keeps one bag per cell).", "quantifier": "every grid content, every number of updates", "why_tests_cant": "needs histories with several updates", "anchors": ["src/engine/fields/dense_object_grid_2d.rs: update"]}
{"id": "C31", "title": "apply_to_all_values tells the closure where the object is", "statement": "On object grids the location passed to the closure is the location of the cell the object is stored in.", "quantifier": "every grid shape and content", "why_tests_cant": "only visible off the diagonal / on non-square grids", "anchors": ["src/engine/fields/dense_object_grid_2d.rs: apply_to_all_values, calculate_indexes_bag"]}
{"id": "C32", "title": "apply_to_all_values removes an object when the closure returns None", "statement": "On the object grids, with any option, an object for which the closure returns None is absent from the buffer being written, and an object for which it returns Some(x) is replaced by x; no other object is lost.", "quantifier": "every grid content, closure and option, every hash order", "why_tests_cant": "closures, contents and options are unbounded", "anchors": ["src/engine/fields/dense_object_grid_2d.rs: apply_to_all_values", "src/engine/fields/sparse_object_grid_2d.rs: apply_to_all_values"]}
{"id": "C33", "title": "SparseGrid2D is a double-buffered bag map", "statement": "For any history of set_object_location, remove_object_location, update and lazy_update, get_objects returns the list of objects placed at the location and not removed before the last update, in placement order (None iff there is none), get_objects_unbuffered the same for the current step; no stored bag is ever empty.", "quantifier": "every history, location and hash order", "why_tests_cant": "unbounded histories", "anchors": ["src/engine/fields/sparse_object_grid_2d.rs: set_object_location, remove_object_location, get_objects, update, lazy_update"]}
{"id": "C34", "title": "Sparse object grid queries are exact", "statement": "get_location(o) returns a location whose published bag holds o and None iff there is none; get_empty_bags lists exactly the in-range locations without published objects; iter_objects visits each published placement exactly once.", "quantifier": "every content and hash order", "why_tests_cant": "hash order is random", "anchors": ["src/engine/fields/sparse_object_grid_2d.rs: get_location, get_empty_bags, iter_objects"]}
{"id": "C35", "title": "Field2D placement is a double-buffered bag map over discretized cells", "statement": "Over any history of set_object_location, remove_object_location and lazy_update with locations inside the field, get_objects(loc) returns exactly the objects placed before the last lazy_update, and not removed, at locations in the same discretization cell as loc, in placement order; get_objects_unbuffered the same for the current step.", "quantifier": "every field size, discretization and history", "why_tests_cant": "unbounded histories and real-valued positions", "anchors": ["src/engine/fields/field_2d.rs: set_object_location, remove_object_location, get_objects, get_objects_unbuffered, lazy_update, discretize"]}
{"id": "C36", "title": "Every position inside the field has a cell", "statement": "For 0 <= x <= width and 0 <= y <= height the discretized cell index is inside the allocated storage, and positions in different cells use different storage.", "quantifier": "all positions, sizes and discretizations", "why_tests_cant": "real-valued positions including the far border", "anchors": ["src/engine/fields/field_2d.rs: new, discretize"]}
{"id": "C37", "title": "Neighbour search returns only objects within the distance", "statement": "Every object returned by get_neighbors_within_distance(loc, d) is in the published buffer and lies at (toroidal, if the field is toroidal) distance at most d from loc.", "quantifier": "every field, content, position and distance", "why_tests_cant": "geometric statement over all positions", "anchors": ["src/engine/fields/field_2d.rs: get_neighbors_within_distance, check_circle, distance"]}
{"id": "C38", "title": "Neighbour search finds every object within the distance", "statement": "Every published object at (toroidal) distance at most d from loc is returned by get_neighbors_within_distance(loc, d).", "quantifier": "every field, content, position and distance", "why_tests_cant": "the misses depend on the position inside a cell", "anchors": ["src/engine/fields/field_2d.rs: get_neighbors_within_distance"]}
{"id": "C39", "title": "Neighbour search returns no object twice", "statement": "get_neighbors_within_distance and get_neighbors_within_relax_distance return each published placement at most once.", "quantifier": "every field (toroidal or not), position and distance", "why_tests_cant": "only visible for distances large relative to the field", "anchors": ["src/engine/fields/field_2d.rs: get_neighbors_within_distance, get_neighbors_within_relax_distance, t_transform"]}
{"id": "C40", "title": "The relaxed search contains the exact search", "statement": "get_neighbors_within_relax_distance(loc,d) contains every object get_neighbors_within_distance(loc,d) returns, in the same order, and both are empty for d <= 0.", "quantifier": "every field, content, position and distance", "why_tests_cant": "all positions and contents", "anchors": ["src/engine/fields/field_2d.rs: get_neighbors_within_relax_distance, get_neighbors_within_distance"]}
{"id": "C41", "title": "Toroidal coordinate arithmetic", "statement": "toroidal_transform(v,dim) lies in [0,dim) and differs from v by a whole number of dim; toroidal_distance(a,b,dim) differs from a-b by a whole number of dim, has absolute value at most dim/2, is antisymmetric up to the half-way tie, and is invariant under shifting both arguments by dim.", "quantifier": "all real values and all positive dims", "why_tests_cant": "real arguments", "anchors": ["src/engine/fields/field_2d.rs: toroidal_transform, toroidal_distance"]}
{"id": "C42", "title": "Cell wrap-around maps into the grid", "statement": "The wrapped cell coordinate t_transform(n,size) used by the neighbour search is in [0,size) and congruent to n modulo size, for every n.", "quantifier": "all integers n and sizes", "why_tests_cant": "only negative multiples of the size misbehave", "anchors": ["src/engine/fields/field_2d.rs: t_transform"]}
{"id": "C43", "title": "Field2D density bookkeeping", "statement": "Until the first lazy_update the number of agents counted equals the number of objects in the write buffer, and the density estimate is that count divided by the number of cells; it never changes afterwards; num_objects_at_location equals the length of get_objects; get_empty_bags lists exactly the cells with no published object.", "quantifier": "every history", "why_tests_cant": "histories", "anchors": ["src/engine/fields/field_2d.rs: nagents, density_estimation, lazy_update, num_objects_at_location, get_empty_bags"]}
{"id": "C44", "title": "Network reads are isolated from writes until update", "statement": "Over any history of add_node, add_edge, remove_edge, remove_node, update_node, remove_all_edges, the read queries get_edge, get_edges, get_object return the state at the last update; update and lazy_update publish exactly the write state, are equal, and are idempotent.", "quantifier": "every history", "why_tests_cant": "unbounded histories", "anchors": ["src/engine/fields/network.rs: update, lazy_update, get_edges, get_edge, get_object, get_id"]}
{"id": "C45", "title": "Undirected networks stay symmetric", "statement": "In an undirected network, v appears in the neighbour list of u as often as u appears in that of v, after any history of add_node, add_edge, remove_edge, remove_node, update.", "quantifier": "every history", "why_tests_cant": "asymmetry arises only for particular multi-edge histories", "anchors": ["src/engine/fields/network.rs: add_edge, remove_edge, remove_node"]}
{"id": "C46", "title": "Node ids are unique", "statement": "Two different nodes present in a Network (HNetwork) never have the same id.", "quantifier": "every history of add_node and removals", "why_tests_cant": "needs histories that remove before adding", "anchors": ["src/engine/fields/network.rs: add_node, remove_node", "src/engine/fields/hnetwork.rs: add_node, remove_object"]}
{"id": "C47", "title": "add_edge adds exactly one edge", "statement": "add_edge(u,v,opts) fails without effect if either node is absent; otherwise it appends exactly the edge u->v with the given label and weight (and v->u if undirected) and leaves every other adjacency list unchanged; the result flags report which directions were added.", "quantifier": "every network and pair of nodes", "why_tests_cant": "all networks", "anchors": ["src/engine/fields/network.rs: add_edge, Edge::new"]}
{"id": "C48", "title": "Edges only mention existing nodes", "statement": "Every endpoint of every stored edge is the id of a present node, after any history; therefore get_edge never panics.", "quantifier": "every history including remove_node", "why_tests_cant": "histories with parallel edges and removals", "anchors": ["src/engine/fields/network.rs: get_edge, add_edge, remove_node"]}
{"id": "C49", "title": "remove_edge removes one edge between the two nodes", "statement": "remove_edge(u,v) removes exactly one edge between u and v (both stored directions in an undirected network), returns it, and leaves everything else; it returns None and changes nothing if there is none.", "quantifier": "every network including multigraphs", "why_tests_cant": "needs multigraphs and edges in both directions", "anchors": ["src/engine/fields/network.rs: remove_edge"]}
{"id": "C50", "title": "remove_node removes the node and all its edges", "statement": "After remove_node(u) (and update) u has no id, no adjacency list and no edge mentions it; all other nodes and edges are unchanged.", "quantifier": "every network including multigraphs", "why_tests_cant": "all networks", "anchors": ["src/engine/fields/network.rs: remove_node, remove_incoming_edges, remove_outgoing_edges"]}
{"id": "C51", "title": "Preferential attachment builds the promised graph", "statement": "preferential_attachment_BA on n >= 2 nodes with parameter m >= 1 yields, for every random stream: an edge between nodes 0 and 1, and for each later node i exactly min(i,m) edges to pairwise distinct earlier nodes; hence 1 + sum of min(i,m) edges in total, no self loops, no parallel edges, and a connected graph.", "quantifier": "every node count, parameter and random stream", "why_tests_cant": "ranges over all random streams and sizes", "anchors": ["src/engine/fields/network.rs: preferential_attachment_BA, preferential_attachment_BA_with_seed"]}
{"id": "C52", "title": "remove_all_edges leaves every node with an empty adjacency", "statement": "After remove_all_edges and update, get_edges returns an empty list for every present node, and the network remains usable for every operation.", "quantifier": "every network", "why_tests_cant": "all networks and following operations", "anchors": ["src/engine/fields/network.rs: remove_all_edges, remove_edge, get_edges"]}
{"id": "C53", "title": "Hyperedges are listed by each of their members", "statement": "In an HNetwork built with add_node, add_edge and removals, a hyperedge listed for one node is listed for every node it contains, and each hyperedge listed for a node contains it.", "quantifier": "every history", "why_tests_cant": "unbounded histories", "anchors": ["src/engine/fields/hnetwork.rs: add_edge, remove_edge, remove_object"]}
{"id": "C54", "title": "No node lists a hyperedge twice", "statement": "No node ever lists two equal hyperedges (same node set).", "quantifier": "every history", "why_tests_cant": "unbounded histories", "anchors": ["src/engine/fields/hnetwork.rs: add_edge, HEdge PartialEq"]}
{"id": "C55", "title": "HNetwork::add_edge reports what it did", "statement": "add_edge returns true iff the hyperedge was added, and a call that returns false leaves the network unchanged.", "quantifier": "every network and node slice, including slices with repeated nodes", "why_tests_cant": "needs repeated nodes or partially overlapping state", "anchors": ["src/engine/fields/hnetwork.rs: add_edge"]}
{"id": "C56", "title": "remove_object removes the node from the hypergraph", "statement": "After remove_object(u) and update no remaining node lists a hyperedge containing u and u is not found.", "quantifier": "every history", "why_tests_cant": "needs un-published edges", "anchors": ["src/engine/fields/hnetwork.rs: remove_object"]}
{"id": "C57", "title": "The kd-tree blocks tile the field", "statement": "For every number of processors >= 2, first_subdivision produces exactly that many blocks with distinct consecutive ids whose interiors are disjoint and whose union is the whole field, so get_block_by_location finds a block for every point of the field and the block contains the point; with one processor there is no subdivision and every point belongs to process 0.", "quantifier": "every processor count and field size", "why_tests_cant": "every processor count, including those that are not powers of two", "anchors": ["src/engine/fields/kdtree_mpi.rs: first_subdivision, split, get_block_by_location"]}
{"id": "C58", "title": "Halo agents reach every process that needs them", "statement": "An agent inserted within the halo distance of a border of its block is offered to the halo region of that border; an agent in a corner is offered to both borders.", "quantifier": "every position", "why_tests_cant": "only corners fail", "anchors": ["src/engine/fields/kdtree_mpi.rs: insert, calculate_regions"]}
{"id": "C59", "title": "Exhaustive exploration enumerates the Cartesian product", "statement": "In exhaustive mode the n configurations used are exactly all combinations of one index per parameter list, each exactly once, in lexicographic order with the last parameter fastest; an empty parameter list gives no configuration and no failure.", "quantifier": "every number and length of parameter lists", "why_tests_cant": "unbounded number of parameters", "anchors": ["src/lib.rs: build_configurations!", "src/explore/model_exploration.rs: explore_sequential!"]}
{"id": "C60", "title": "Exploration rows are labelled consistently", "statement": "explore_sequential! and explore_parallel! return the same number of rows, configuration major, with the same configuration and repetition labels, and each repetition of a configuration starts from a freshly constructed state.", "quantifier": "every number of configurations and repetitions, every state type", "why_tests_cant": "all state types and counts", "anchors": ["src/explore/model_exploration.rs: explore_sequential!, explore_parallel!, simulate_explore!"]}
{"id": "C61", "title": "Distributed exploration covers each configuration once", "statement": "With any number of MPI processes every configuration is simulated by exactly one process, the receive counts and displacements computed by the root match what each process sends and tile the result without gap or overlap, and the configuration label in each row identifies the configuration that was simulated.", "quantifier": "every number of processes, configurations and repetitions", "why_tests_cant": "process counts and remainders", "anchors": ["src/explore/mpi/model_exploration.rs: explore_distributed_mpi!"]}
{"id": "C62", "title": "Genetic search reports the best individual evaluated", "statement": "When the comparison is a strict weak order, the best fitness and individual reported are those of an individual that was evaluated and that no evaluated individual beats; the search stops within the given number of generations, or as soon as an individual reaches the desired fitness, and each evaluated individual contributes exactly one row.", "quantifier": "every user selection, crossover, mutation, fitness function, every generation count", "why_tests_cant": "user callbacks are arbitrary", "anchors": ["src/explore/genetic.rs: explore_ga_sequential!, explore_ga_parallel!"]}
{"id": "C63", "title": "Distributed genetic search assigns individuals and fitnesses correctly", "statement": "In the MPI genetic search the population is split into contiguous blocks covering each individual once, the gathered indices are the global indices, and selection receives each individual paired with its own fitness of this generation.", "quantifier": "every population size per generation and process count", "why_tests_cant": "needs populations whose size changes between generations", "anchors": ["src/explore/mpi/genetic.rs: explore_ga_distributed_mpi!"]}
{"id": "C64", "title": "Cloud genetic search evaluates each individual the requested number of times", "statement": "The work lists sent to the lambda functions contain each individual exactly reps times in total, for every population size, number of functions and reps.", "quantifier": "every population size, function count, repetition count", "why_tests_cant": "index arithmetic with remainders", "anchors": ["src/explore/aws/genetic.rs: explore_ga_aws! (workload subdivision)"]}
{"id": "C65", "title": "Random search never gets worse and returns its best sample", "statement": "random_search! returns a state and cost such that the cost is the smallest cost evaluated and belongs to the returned sample (or the initial state if no sample costs less than the largest float); it stops after n_iter iterations or at the first iteration whose best cost reaches the target.", "quantifier": "every cost function, generator, batch size and iteration count", "why_tests_cant": "arbitrary callbacks and random streams", "anchors": ["src/explore/random_search.rs: random_search!"]}
{"id": "C66", "title": "Bayesian search returns the best evaluated point", "statement": "bayesian_search! returns the pair (x, y) where y is the largest objective value among all points evaluated and x is a point with that value (the first one); the acquisition step picks a sample of maximal expected improvement.", "quantifier": "every objective, sample generator, surrogate and iteration count", "why_tests_cant": "arbitrary callbacks", "anchors": ["src/explore/bayesian.rs: bayesian_search!, acquisition_function"]}
{"id": "C67", "title": "gen_param yields the requested values", "statement": "gen_param!(ty, min, max, n) returns max(n,1) values, each in the half-open range between the smaller and the larger bound (or [min, min+1) if they are equal).", "quantifier": "every bounds, counts and random stream", "why_tests_cant": "random streams", "anchors": ["src/lib.rs: gen_param!"]}
{"id": "C68", "title": "simulate! runs each repetition to its limit or end condition", "statement": "simulate! (without terminal), simulate_old!, simulate_explore! run each repetition with a new schedule for exactly k steps where k is the first step after which end_condition holds, or the step limit if it never does; a repetition that ends early does not shorten the following ones.", "quantifier": "every model, step limit and repetition count", "why_tests_cant": "arbitrary models", "anchors": ["src/lib.rs: simulate!, simulate_old!", "src/explore/model_exploration.rs: simulate_explore!"]}
{"id": "C69", "title": "Plots keep every point and tight bounds", "statement": "plot! appends the point to exactly the named series of the named plot and keeps min/max equal to the true minimum and maximum of all plotted points; plotting to an unknown plot changes nothing; addplot! for an existing name changes nothing.", "quantifier": "every sequence of addplot!/plot! calls", "why_tests_cant": "all call sequences", "anchors": ["src/lib.rs: plot!, addplot!, PlotData"]}
{"id": "C70", "title": "Points saved as CSV land in the file of their repetition", "statement": "Every point plotted with csv: true during repetition r of simulate! is written to the file numbered r, in plotting order.", "quantifier": "every interleaving of init, plotting and repetitions", "why_tests_cant": "message histories", "anchors": ["src/lib.rs: simulate! csv thread, plot!"]}
{"id": "C71", "title": "Logs of the current repetition come first, newest first", "statement": "log! inserts at the front of the current repetition's log; logs of earlier repetitions are kept unchanged behind it; no log is lost.", "quantifier": "every sequence of log calls and repetitions", "why_tests_cant": "all call sequences", "anchors": ["src/lib.rs: log!, simulate!"]}
{"id": "C72", "title": "Terminal navigation stays in range", "statement": "Whatever keys are pressed, the selected tab is an existing tab, right then left returns to the same tab, the selected log is an existing log, and no key press panics; the monitoring window keeps at most 101 samples.", "quantifier": "every key sequence and every history of logs", "why_tests_cant": "unbounded key sequences", "anchors": ["src/utils/monitoring/ui.rs: TabsState::next, previous, UI::on_up, on_down, on_tick"]}
{"id": "C73", "title": "check_reproducibility is sound and total", "statement": "check_reproducibility! reports equal executions iff both executions have the same number of recorded steps and pairwise equal agents at each step, and never panics.", "quantifier": "every pair of executions", "why_tests_cant": "needs executions of different length", "anchors": ["src/lib.rs: check_reproducibility!"]}
{"id": "C74", "title": "Random empty cells of a continuous field are inside the field", "statement": "Field2D::get_random_empty_bag never panics, returns None exactly when every cell holds a published object, and otherwise a position inside the field whose cell holds no published object; get_empty_bags the same for all of them.", "quantifier": "every field size, discretization, history and random draw", "why_tests_cant": "tests fix a size that is a multiple of the discretization", "anchors": ["src/engine/fields/field_2d.rs: Field2D::get_random_empty_bag, get_empty_bags, not_discretize"]}
{"id": "C75", "title": "Iteration over a continuous field visits each placement once", "statement": "Field2D::iter_objects calls the closure exactly once per published placement, with the corner of the cell the object is in, and for nothing else; iter_objects_unbuffered the same for the current step.", "quantifier": "every history and every field size", "why_tests_cant": "all histories and contents", "anchors": ["src/engine/fields/field_2d.rs: Field2D::iter_objects, iter_objects_unbuffered"]}
{"id": "C76", "title": "get_all_events lists exactly the pending agents", "statement": "Schedule::get_all_events returns one clone per pending agent and nothing else: empty on a new schedule, one more after scheduling an agent with a fresh id, one less after a successful dequeue, and after the agents of a step have run the later agents together with the agents that go on, in the state their callbacks left them.", "quantifier": "every history of API calls and steps, every user code and tie-breaking", "why_tests_cant": "all histories and queue contents", "anchors": ["src/engine/schedule.rs: Schedule::get_all_events"]}
{"id": "C77", "title": "A step passes state and schedule through the hooks without loss", "statement": "One step is exactly: update(0) if no step was made yet, before_step, the turns of the due agents in order, after_step, counter + 1, update(counter); each of these sees the state and the schedule exactly as the previous one left them, including agents scheduled or dequeued by the hooks, and the state and schedule after the step are those the last one left.", "quantifier": "every history, every user code in the hooks and agents", "why_tests_cant": "arbitrary user hooks that themselves schedule and cancel agents", "anchors": ["src/engine/schedule.rs: Schedule::step", "src/engine/state.rs: State"]}
{"id": "C78", "title": "get_edge agrees with get_edges", "statement": "In a network whose nodes were added under free ids and removed only when all their edges could be found, get_edge(u,v) returns the first edge to v in the list get_edges(u) and None exactly if there is none; in an undirected network whose edges were removed only between singly linked nodes get_edge(u,v) finds an edge iff get_edge(v,u) does.", "quantifier": "every such history and every pair of nodes", "why_tests_cant": "all histories; a dangling edge makes the call panic", "anchors": ["src/engine/fields/network.rs: get_edge, get_edges"]}
{"id": "C79", "title": "remove_incoming_edges and remove_outgoing_edges remove exactly those edges", "statement": "remove_incoming_edges(u) removes exactly the edges from other nodes to u and returns them, remove_outgoing_edges(u) exactly the edges from u to other nodes, and everything else is unchanged.", "quantifier": "every network and node, including the examples in their documentation", "why_tests_cant": "all networks; the documented example itself is not exercised by the tests", "anchors": ["src/engine/fields/network.rs: remove_incoming_edges, remove_outgoing_edges"]}
{"id": "C80", "title": "HNetwork reads are isolated until update", "statement": "Until update is called, the reading operations of an HNetwork (get_object, get_id, get_edges, get_edge) show the hypergraph as of the last update, whatever was written since; after update they show exactly what was written.", "quantifier": "every HNetwork and every sequence of writes", "why_tests_cant": "all write sequences; tests call update immediately after writing", "anchors": ["src/engine/fields/hnetwork.rs: HNetwork"]}
{"id": "C81", "title": "Hyperedges are identified by their node set", "statement": "get_edge and remove_edge find a hyperedge iff there is one with exactly the given nodes, whatever their order; remove_edge removes it from the list of every member, changes nothing else and returns it.", "quantifier": "every history and every slice of nodes", "why_tests_cant": "all histories, slices in every order and with repetitions", "anchors": ["src/engine/fields/hnetwork.rs: get_edge, remove_edge, HEdge::eq"]}
{"id": "C82", "title": "Distributed neighbours are exactly the touching blocks", "statement": "After create_tree(0, ..) process r works on the block with id r, and its neighbor_trees lists, in ascending order, exactly the other processes whose blocks share a point with its own block on the torus.", "quantifier": "every processor count >= 2, every field with non-negative origin, every rank", "why_tests_cant": "T-junctions and wrap-around for every processor count; MPI programs are not unit tested", "anchors": ["src/engine/fields/kdtree_mpi.rs: create_tree, first_subdivision, calculate_neighbors"]}
{"id": "C83", "title": "The message exchange never blocks and delivers exactly what was prepared", "statement": "If every process calls message_exchange, the pairwise exchange of lengths cannot deadlock, and each process receives from each neighbour exactly the agents that neighbour put in agents_to_send for it, in order, and nothing from others.", "quantifier": "every processor count, every field, every interleaving of the processes", "why_tests_cant": "all interleavings of all process counts", "anchors": ["src/engine/fields/kdtree_mpi.rs: message_exchange"]}
{"id": "C84", "title": "Every agent near a foreign block is sent to the owner of that block", "statement": "An agent whose distance (per axis, on the torus) to a block of another process is at most the halo distance is, after lazy_update, among the agents that process receives in the halo exchange.", "quantifier": "every processor count, every position, halo distance less than half the block size", "why_tests_cant": "only uneven subdivisions fail, and only in corners", "anchors": ["src/engine/fields/kdtree_mpi.rs: insert, calculate_regions, lazy_update, message_exchange"]}
{"id": "C85", "title": "The distributed search is the search of Field2D", "statement": "get_neighbors_within_distance of the distributed field returns exactly what the search of Field2D returns on the same bags of a torus of the size of the whole field, in the same order, without the agents located exactly at the query point; agents added with insert_read are readable at once; the relaxed search never looks further than the halo distance.", "quantifier": "every content, query and distance", "why_tests_cant": "all contents and queries", "anchors": ["src/engine/fields/kdtree_mpi.rs: get_neighbors_within_distance, get_distributed_neighbors_within_relax_distance, insert_read"]}
{"id": "C86", "title": "A removed agent is not sent to other processes", "statement": "An agent inserted and removed again before lazy_update is not among the agents sent in the next halo exchange.", "quantifier": "every position", "why_tests_cant": "only agents near a border are affected", "anchors": ["src/engine/fields/kdtree_mpi.rs: remove_object_location, insert, message_exchange"]}
{"id": "C87", "title": "simulate! with the terminal runs the same repetitions as without", "statement": "simulate! with the terminal interface (any speed of the interface thread, no key pressed) runs the same repetitions for the same number of steps as without it.", "quantifier": "every model, step limit, repetition count and interleaving with the interface thread", "why_tests_cant": "a race between two threads", "anchors": ["src/lib.rs: simulate!", "src/utils/monitoring/ui.rs: UI"]}
{"id": "C88", "title": "simulate_mpi! runs all repetitions and keeps the processes in step", "statement": "simulate_mpi! runs every repetition on every process to its limit or end condition and returns, whatever the end conditions of the processes are.", "quantifier": "every number of processes, model, step limit and repetition count", "why_tests_cant": "needs MPI; the failures are deadlocks", "anchors": ["src/lib.rs: simulate_mpi!"]}
{"id": "C89", "title": "The run reports never fail", "statement": "simulate_old! and simulate_mpi! print their report after every run without a panic, whatever the number of steps, repetitions and the time needed.", "quantifier": "every number of steps and repetitions, every duration", "why_tests_cant": "needs runs of hours", "anchors": ["src/lib.rs: simulate_old!, simulate_mpi!"]}
{"id": "C90", "title": "Matched exploration pairs the i-th values", "statement": "In matched mode configuration i consists of the i-th value of every parameter list, and lists of different lengths are refused or reported, never silently truncated.", "quantifier": "every number and length of parameter lists", "why_tests_cant": "unbounded number and lengths of lists", "anchors": ["src/explore/model_exploration.rs: explore_sequential!, explore_parallel!"]}
{"id": "C91", "title": "Distributed genetic search reports the best individual", "statement": "The row printed as the best of the MPI genetic search is the row of an individual that was evaluated and that no evaluated individual beats under the comparison of the user.", "quantifier": "every population, comparison, fitness function and process count", "why_tests_cant": "needs MPI, and fitnesses on both sides of a constant buried in the macro", "anchors": ["src/explore/mpi/genetic.rs: explore_ga_distributed_mpi!"]}
{"id": "C92", "title": "Distributed genetic search ends on all processes", "statement": "The MPI genetic search returns on every process for every number of processes and whatever sizes the selection leaves.", "quantifier": "every process count, population size and user selection", "why_tests_cant": "needs MPI; the failures are deadlocks and panics of single processes", "anchors": ["src/explore/mpi/genetic.rs: explore_ga_distributed_mpi!"]}
{"id": "C93", "title": "Cloud genetic search reports the best individual evaluated", "statement": "The best fitness and individual reported by the cloud genetic search are those of an evaluated individual that no evaluated individual beats.", "quantifier": "every fitness function, population and order of arrival", "why_tests_cant": "needs deployed functions and fitnesses that are not positive", "anchors": ["src/explore/aws/genetic.rs: explore_ga_aws!"]}
{"id": "C94", "title": "Cloud genetic search works for any number of functions", "statement": "For every positive number of functions a generation is evaluated without a panic, the selection gets one row for each individual and repetition, and the search stops exactly if the desired fitness is reached.", "quantifier": "every number of functions, population size, repetition count and order of arrival", "why_tests_cant": "needs deployed functions; the failure needs fewer runs than functions", "anchors": ["src/explore/aws/genetic.rs: explore_ga_aws!"]}
{"id": "C95", "title": "Sample generation yields points in the cube", "statement": "generate_samples(n, k, scale) returns n points of k coordinates, each between -scale and scale (scale not negative).", "quantifier": "every n, k, scale and random stream", "why_tests_cant": "random streams", "anchors": ["src/explore/bayesian.rs: generate_samples"]}
{"id": "C96", "title": "Random search evaluates the sample it generated", "statement": "The cost random_search! gives a sample is the mean of the costs of reps runs that each start with that sample, and the state returned is a generated sample.", "quantifier": "every model, cost function and repetition count", "why_tests_cant": "arbitrary models; visible only if init does not reset everything", "anchors": ["src/explore/random_search.rs: random_search!"]}
{"id": "C97", "title": "load_csv! returns the named columns", "statement": "load_csv!(file, x: T, ..) returns for each field name the parsed values of the column with that name, in row order, and panics if a record is malformed.", "quantifier": "every file and list of fields", "why_tests_cant": "all files", "anchors": ["src/lib.rs: load_csv!"]}
{"id": "C98", "title": "load_csv! reads back what write_csv wrote", "statement": "For every dataframe of values whose written text parses to the value again (C229: not texts), the file written by write_csv, read by load_csv! with all fields in order, gives back the columns of the dataframe in row order.", "quantifier": "every such dataframe, whatever the number of rows and columns", "why_tests_cant": "all dataframes", "anchors": ["src/lib.rs: write_csv, load_csv!"]}
{"id": "C99", "title": "Plotting works under every driver", "statement": "A model that plots, with or without csv: true, runs under simulate! with and without the terminal, under simulate_old! and in the explorations without a panic.", "quantifier": "every sequence of addplot!/plot! calls and every driver", "why_tests_cant": "needs every combination of driver and calls; the terminal cannot run in a test", "anchors": ["src/lib.rs: plot!, simulate!, simulate_old!"]}
{"id": "C100", "title": "The monitoring chart shows the newest samples", "statement": "After any number of ticks the chart of processor and memory use holds the newest samples at consecutive positions, and they lie in the displayed window.", "quantifier": "every number of ticks", "why_tests_cant": "needs a terminal and many ticks", "anchors": ["src/utils/monitoring/ui.rs: UI::on_tick, draw"]}
{"id": "C101", "title": "The terminal interface can always be drawn", "statement": "For every number of repetitions and every set of plots and logs, draw succeeds and every plot has a tab.", "quantifier": "every number of repetitions, plots and logs", "why_tests_cant": "needs a terminal", "anchors": ["src/utils/monitoring/ui.rs: UI::draw"]}
{"id": "C102", "title": "Number grids under the feature parallel are double buffered", "statement": "With the feature parallel, whatever the number of shards and the hash function: get_value_unbuffered is the value written last since the latest lazy_update, get_value the published one (lazy_update publishes exactly what was written, update adds what was written to what was published), and apply_to_all_values acts cell by cell on the written values.", "quantifier": "every program of set, update, lazy_update and apply calls, every processor count and hash function", "why_tests_cant": "all programs, hash functions and shard counts", "anchors": ["src/engine/fields/dense_number_grid_2d.rs", "src/engine/fields/sparse_number_grid_2d.rs", "src/utils/dbdashmap.rs"]}
{"id": "C103", "title": "Number grids answer the same with and without the feature parallel", "statement": "A program of calls on a number grid gives the same answers whether krABMaga is compiled with the feature parallel or not.", "quantifier": "every program", "why_tests_cant": "one binary has one of the variants; all programs", "anchors": ["src/engine/fields/dense_number_grid_2d.rs", "src/engine/fields/sparse_number_grid_2d.rs"]}
{"id": "C104", "title": "Object grids under the feature parallel: an object is in the bag of its location only", "statement": "With the feature parallel, get_objects(l) contains an object iff get_location(object) is l.", "quantifier": "every program of placements and updates, every hash function", "why_tests_cant": "all programs", "anchors": ["src/engine/fields/dense_object_grid_2d.rs", "src/engine/fields/sparse_object_grid_2d.rs"]}
{"id": "C105", "title": "Object grids under the feature parallel: remove_object removes the object", "statement": "With the feature parallel, remove_object does not panic and after it no written bag holds the object and it has no written location.", "quantifier": "every reachable grid", "why_tests_cant": "all programs before the call", "anchors": ["src/engine/fields/dense_object_grid_2d.rs: remove_object", "src/engine/fields/sparse_object_grid_2d.rs: remove_object"]}
{"id": "C106", "title": "Object grids under the feature parallel: apply_to_all_values replaces the objects", "statement": "With the feature parallel, after apply_to_all_values and an update every object is the one the closure gave, in get and in the bags.", "quantifier": "every reachable grid, closure and option", "why_tests_cant": "all programs before the call", "anchors": ["src/engine/fields/dense_object_grid_2d.rs: apply_to_all_values", "src/engine/fields/sparse_object_grid_2d.rs: apply_to_all_values"]}
{"id": "C107", "title": "Concurrent placements on an object grid lose no object", "statement": "When agents stepped in parallel call set_object_location at the same time, each object ends up in the bag of its location and with its location, whatever the interleaving.", "quantifier": "every number of threads, every set of objects and locations, every interleaving of the locked sections", "why_tests_cant": "interleavings", "anchors": ["src/engine/fields/dense_object_grid_2d.rs: set_object_location", "src/engine/fields/sparse_object_grid_2d.rs: set_object_location", "src/utils/dbdashmap.rs: get_write, insert"]}
{"id": "C108", "title": "Empty-bag queries of the sparse object grid under the feature parallel", "statement": "get_empty_bags lists exactly the cells where get_objects answers None, and get_random_empty_bag answers one of them.", "quantifier": "every program and stream of drawn locations", "why_tests_cant": "all programs; random streams", "anchors": ["src/engine/fields/sparse_object_grid_2d.rs: get_empty_bags, get_random_empty_bag"]}
{"id": "C109", "title": "Field2D answers the same with and without the feature parallel", "statement": "A program of calls on a Field2D gives the same get_objects, num_objects_at_location and neighbour searches whether krABMaga is compiled with the feature parallel or not.", "quantifier": "every program, every hash function and processor count, positive sizes, plain and toroidal fields, every searched position and distance", "why_tests_cant": "one binary has one of the variants; all programs", "anchors": ["src/engine/fields/field_2d.rs: first impl Field2D (parallel) and second one"]}
{"id": "C110", "title": "Field2D under the feature parallel: a neighbour search answers in every state", "statement": "With the feature parallel, get_neighbors_within_distance and get_neighbors_within_relax_distance return a list whatever the state of the field, an empty one if nothing is published.", "quantifier": "every program, position and distance", "why_tests_cant": "all states, also those before the first lazy_update", "anchors": ["src/engine/fields/field_2d.rs: get_neighbors_within_distance, get_neighbors_within_relax_distance (parallel)"]}
{"id": "C111", "title": "Field2D under the feature parallel: get and get_location answer the published placement", "statement": "With the feature parallel, get and get_location answer the object and the position of the latest placement that was published, None if there is none.", "quantifier": "every program of placements, update and lazy_update, every hash function and processor count", "why_tests_cant": "all programs and hash functions", "anchors": ["src/engine/fields/field_2d.rs: get, get_location (parallel)"]}
{"id": "C112", "title": "Field2D under the feature parallel: num_objects counts the published objects", "statement": "With the feature parallel, num_objects is the number of distinct objects that are published.", "quantifier": "every program of placements, update and lazy_update", "why_tests_cant": "all programs", "anchors": ["src/engine/fields/field_2d.rs: num_objects (parallel)"]}
{"id": "C113", "title": "Field2D under the feature parallel: an object is shown once, where it is", "statement": "With the feature parallel, get_objects at p contains an object iff get_location of the object is in the square of p, and no object twice.", "quantifier": "every program of placements and updates", "why_tests_cant": "all programs", "anchors": ["src/engine/fields/field_2d.rs: set_object_location, get_objects, get_location (parallel)"]}
{"id": "C114", "title": "Concurrent placements on a Field2D lose no object", "statement": "When agents stepped in parallel call set_object_location at the same time, the bag of each square holds its old objects and those placed in it, each once, and every location is right, whatever the interleaving.", "quantifier": "every reachable field, every set of objects and positions, every interleaving of the locked sections", "why_tests_cant": "interleavings", "anchors": ["src/engine/fields/field_2d.rs: set_object_location (parallel)", "src/utils/dbdashmap.rs: get_write, insert"]}
{"id": "C115", "title": "Field2D under the feature parallel: the unbuffered reads answer the current step", "statement": "With the feature parallel, get_location_unbuffered and get_unbuffered answer the position and the object placed last since the latest lazy_update, None if there is none.", "quantifier": "every program", "why_tests_cant": "all programs", "anchors": ["src/engine/fields/field_2d.rs: get_location_unbuffered, get_unbuffered (parallel)"]}
{"id": "C116", "title": "Network under the feature parallel answers like the network without it", "statement": "With the feature parallel, every query of a Network (get_edges, get_edge, get_object) and every returned value is the same as without the feature, after the same calls.", "quantifier": "every history of calls, every hash function and processor count", "why_tests_cant": "all histories, two builds of the library, hash functions", "anchors": ["src/engine/fields/network.rs: Network (parallel), lines 80-574, and Network (not parallel)"]}
{"id": "C117", "title": "Network under the feature parallel: nothing written is seen before the publication", "statement": "With the feature parallel, calls other than update and lazy_update do not change the answer of any query.", "quantifier": "every history of calls", "why_tests_cant": "all histories", "anchors": ["src/engine/fields/network.rs: get_edge, get_edges, get_object, remove_node (parallel)"]}
{"id": "C118", "title": "Network under the feature parallel: what a publication shows", "statement": "With the feature parallel, after update a query shows what is written, and where nothing is written what it showed before; a second update changes nothing; an id that has shown a node always shows one.", "quantifier": "every history of calls", "why_tests_cant": "all histories", "anchors": ["src/engine/fields/network.rs: update, lazy_update (parallel)", "src/utils/dbdashmap.rs: update"]}
{"id": "C119", "title": "Network under the feature parallel: remove_all_edges removes all edges", "statement": "With the feature parallel, after remove_all_edges and update no node shows an edge, and the other calls still work.", "quantifier": "every history of calls", "why_tests_cant": "all histories", "anchors": ["src/engine/fields/network.rs: remove_all_edges, remove_edge (parallel)"]}
{"id": "C120", "title": "Network under the feature parallel: remove_node removes the node and its edges", "statement": "With the feature parallel, after remove_node and update the node, its list and the edges that end in it are gone, and nothing else has changed.", "quantifier": "every history of calls, every node", "why_tests_cant": "all histories", "anchors": ["src/engine/fields/network.rs: remove_node (parallel)"]}
{"id": "C121", "title": "Network under the feature parallel: ids are unique and a new node has no edges", "statement": "With the feature parallel, different nodes have different ids and a new node is shown under its id with an empty list after the publication.", "quantifier": "every history of calls", "why_tests_cant": "all histories", "anchors": ["src/engine/fields/network.rs: add_node (parallel)"]}
{"id": "C122", "title": "Network under the feature parallel: edges and nodes fit together", "statement": "With the feature parallel, every shown edge starts at the node that lists it and ends at a shown node, get_edge never panics and finds the first edge, and in an undirected network an edge is listed at both ends.", "quantifier": "every history of calls", "why_tests_cant": "all histories", "anchors": ["src/engine/fields/network.rs: get_edge, add_edge, remove_edge (parallel)"]}
{"id": "C123", "title": "Network under the feature parallel: add_prob_edge adds edges to different nodes", "statement": "With the feature parallel, add_prob_edge(u, k) writes one edge from u to each of a set of different shown nodes, as many as k and the numbers of lists allow, with reverses if undirected, and nothing else; an absent u changes nothing.", "quantifier": "every history of calls, every outcome of the random choice", "why_tests_cant": "all histories and random choices", "anchors": ["src/engine/fields/network.rs: add_prob_edge (parallel)"]}
{"id": "C124", "title": "Network under the feature parallel: preferential attachment builds the Barabasi-Albert graph", "statement": "With the feature parallel, preferential_attachment_BA leaves the network showing exactly the edge 0-1 and, for each later node i of the node set, edges to min(i, m) different earlier nodes.", "quantifier": "every history of calls before it, every random stream, every node set of the nodes, m at least 1", "why_tests_cant": "all random streams and histories", "anchors": ["src/engine/fields/network.rs: preferential_attachment_BA, preferential_attachment_BA_with_seed (parallel)"]}
{"id": "C125", "title": "simulate!: the terminal shows steps and repetitions in order, each at most once", "statement": "With the terminal, the steps it shows are steps the simulation made, in their order and none twice; the same for the repetitions; and every message sent is received or still in the channel.", "quantifier": "every number of repetitions and steps, every interleaving of the two threads", "why_tests_cant": "all interleavings of two threads", "anchors": ["src/lib.rs: simulate! (terminal thread, simulation thread)"]}
{"id": "C126", "title": "simulate!: the last step and the last repetition are shown", "statement": "When the simulation has ended the terminal has shown, or will show, its last step and its last repetition.", "quantifier": "every number of repetitions and steps, every interleaving of the two threads", "why_tests_cant": "a race between reading a slot and marking it consumed", "anchors": ["src/lib.rs: simulate! (terminal thread, simulation thread)"]}
{"id": "C127", "title": "simulate!: the terminal closes when the last repetition meets its end condition", "statement": "If the end condition holds in the last repetition, the terminal closes by itself, and it closes by itself only if some repetition met its end condition.", "quantifier": "every number of repetitions and steps, every interleaving of the two threads", "why_tests_cant": "a race between reading a slot and marking it consumed", "anchors": ["src/lib.rs: simulate! (terminal thread, simulation thread)"]}
{"id": "C128", "title": "Visualization: the texture of a number grid shows every cell in its place", "statement": "The texture has four bytes for each cell; read row by row from the top, the four bytes at column x of row y are the colour of the cell (x, height-1-y), so the first row of the field is at the bottom and columns keep their order.", "quantifier": "every width and height, every colouring of the cells", "why_tests_cant": "flip and rotation compose for all sizes, odd and even", "anchors": ["src/visualization/fields/number_grid_2d.rs: init, update_texture (texture_from_bitmap)"]}
{"id": "C129", "title": "Visualization: the simulation advances one step per fixed time step while it is not paused", "statement": "After any sequence of time steps and presses of Start, Stop and Pause, the simulation is where as many steps as there were time steps while it ran, since the last Stop, take it from its beginning; the panel shows that number; while paused nothing changes; Stop returns to the beginning, if reset allows it.", "quantifier": "every simulation, every sequence of events", "why_tests_cant": "all sequences of events", "anchors": ["src/visualization/systems/simulation_system.rs", "src/visualization/systems/ui_system.rs", "src/visualization/systems/init_system.rs", "src/visualization/visualization.rs: setup"]}
{"id": "C130", "title": "Visualization: a simulation that is watched ends where simulate! ends it", "statement": "Started and left alone, the visualized simulation makes the steps that simulate! makes, and stops where its end condition holds.", "quantifier": "every simulation and number of steps", "why_tests_cant": "for all simulations and numbers of steps", "anchors": ["src/visualization/systems/simulation_system.rs", "src/lib.rs: simulate!"]}
{"id": "C131", "title": "Visualization: every scheduled agent is drawn at its location", "statement": "At the beginning and after each step, every agent of the schedule that has a render has a visible sprite at its location, half a unit up, with its emoji; sprites of agents that are gone are hidden.", "quantifier": "every simulation, every sequence of steps", "why_tests_cant": "agents that come and go during the run", "anchors": ["src/visualization/visualization_state.rs: setup_graphics, setup_agent_graphics", "src/visualization/systems/renderer_system.rs"]}
{"id": "C132", "title": "Visualization: what AgentRender::update sets is what is drawn", "statement": "The transform and the visibility that the user's update leaves in its mutable arguments are those of the sprite.", "quantifier": "every implementation of AgentRender", "why_tests_cant": "for all implementations of update, and for the accumulated effect of any number of frames", "anchors": ["src/visualization/systems/renderer_system.rs", "src/visualization/agent_render.rs: update"]}
{"id": "C133", "title": "Visualization: the objects of an object grid are drawn where they are", "statement": "At the beginning and in each frame, exactly the objects of the grid are drawn, each at its location, half a unit up.", "quantifier": "every grid and every sequence of states", "why_tests_cant": "objects that come and go, and the frame between initialization and first rendering", "anchors": ["src/visualization/fields/object_grid_2d.rs: init_graphics_grid, render"]}
{"id": "C134", "title": "Visualization: the edges of a network join the current locations of their nodes", "statement": "In each frame the line of every edge that is not static joins the locations the two nodes have now.", "quantifier": "every sequence of locations of the nodes", "why_tests_cant": "depends on all previous frames", "anchors": ["src/visualization/fields/network.rs: init_network_graphics, render"]}
{"id": "C135", "title": "Visualization: the simulation area fills the window right of the panel, and agents are aligned with cells", "statement": "For every window wider than the panel the points of the simulation area are exactly those that appear right of the panel; the pixel of the texture that shows cell (i, k) has its centre where an agent at (i, k) is drawn, if the field has the size of the simulation area.", "quantifier": "every size of the window and of the simulation", "why_tests_cant": "for all sizes of the window", "anchors": ["src/visualization/systems/init_system.rs", "src/visualization/systems/camera_system.rs", "src/visualization/visualization.rs: setup", "src/visualization/fields/number_grid_2d.rs: init"]}
{"id": "C136", "title": "Visualization: each emoji is loaded once", "statement": "However often emojis are asked for, no file is loaded twice, and every request is answered by the handle of its own file.", "quantifier": "every sequence of requests", "why_tests_cant": "for all sequences of requests", "anchors": ["src/visualization/asset_handle_factory.rs: get_emoji_loader, get_material_handle"]}
{"id": "C137", "title": "Terminal interface: the keys do what the help says", "statement": "After any sequence of events that does not panic: the interface quits exactly if Q was pressed; the charts are shown exactly if C was pressed an even number of times, the description if S was pressed an odd number of times; the table of repetitions holds those reported, newest first; Up and Down move the selected log by one, cyclically, and nothing else does while no new logs are drawn.", "quantifier": "every sequence of keys, ticks, repetitions and drawings", "why_tests_cant": "all sequences of events", "anchors": ["src/utils/monitoring/ui.rs: on_up, on_down, on_key, on_rep"]}
{"id": "C138", "title": "A whole simulation is synchronous: all agents see the previous step", "statement": "In the flockers simulation (world at least as high as wide), whatever the order in which the birds run within a step: no step panics; after every number m of steps the scheduled agents are exactly the initial birds after m rounds in which all of them move at once, each from what the field showed at the end of the round before; the published field shows every bird in the square of its position and nothing else; no two moves use the same random numbers. The same holds in every repetition of simulate!, although the field is not reset.", "quantifier": "every number of birds, every size with width <= height, every stream of random numbers in [0,1], every tie-breaking, every number of steps and repetitions", "why_tests_cant": "the order within a step is chosen by a heap and the claim is over all orders and all lengths of runs; it combines schedule, driver and double-buffered field", "anchors": ["tests/model/flockers/bird.rs: step", "tests/model/flockers/state.rs: init, update", "src/engine/schedule.rs: step", "src/engine/fields/field_2d.rs: set_object_location, lazy_update, get_neighbors_within_distance", "src/lib.rs: simulate!"]}
{"id": "C139", "title": "A simulation gives the same result with and without the feature parallel", "statement": "With the feature parallel, for every number of threads and every interleaving of the workers, the flockers simulation does not panic and is a run in which all birds move at once; steps can always be completed; and if the weight RANDOMNESS is zero, the agents after every number of steps are the same as in the sequential simulation.", "quantifier": "all numbers of threads, interleavings, hash functions, numbers of processors, tie-breakings, numbers of steps, sizes with width <= height", "why_tests_cant": "all interleavings of the workers over arbitrarily long runs", "anchors": ["src/engine/schedule.rs: step (parallel)", "src/engine/fields/field_2d.rs: Field2D (parallel)", "tests/model/flockers/bird.rs: step", "tests/model/flockers/state.rs"]}
{"id": "C140", "title": "The birds of the flockers simulation stay inside the world", "statement": "Whatever the size of the world, after every step every bird has a position inside the world, no step panics, and the field shows it in the square of that position.", "quantifier": "all positive sizes", "why_tests_cant": "all sizes, positions and random numbers", "anchors": ["tests/model/flockers/bird.rs: step (loc_y is wrapped with width)"]}
{"id": "C141", "title": "Models that look and then place are synchronous", "statement": "Take any model whose agents look at the published field, decide from what they see, and place themselves in the field again or die (is_stopped), and whose state publishes the field in update. Whatever orderings the agents are scheduled with, and whatever the order within a step, after every number m of steps the scheduled agents and the published field are the population of m rounds in which all agents act at once on the population of the round before; the dead are gone; no step panics; no random value is used twice. With the feature parallel every completed run is of this kind too, steps complete as long as an agent lives, and in every repetition of simulate! no agent of an earlier repetition is left.", "quantifier": "every double-buffered field that satisfies five laws (instances in C142, C143), every rule that keeps identities and does not depend on the order of what it sees, every list of agents, orderings, tie-breaking, number of threads, interleaving, number of steps and repetitions", "why_tests_cant": "it is a claim about all user models and all schedules of arbitrarily long runs", "anchors": ["src/engine/schedule.rs: step, schedule_repeating", "src/engine/agent.rs: Agent", "src/engine/state.rs: State", "src/engine/fields/field.rs: lazy_update", "src/lib.rs: simulate!"]}
{"id": "C142", "title": "Agents on the object grids act at once", "statement": "C141 for agents on a DenseGrid2D or SparseGrid2D that look with get_objects at any locations inside the grid: after every number of steps get_objects answers, at every location, exactly the agents of the synchronous population that are there; the same with the feature parallel.", "quantifier": "all sizes, neighbourhoods, rules, orders, threads, interleavings, hash functions, numbers of steps", "why_tests_cant": "all models, orders and lengths of runs", "anchors": ["src/engine/fields/dense_object_grid_2d.rs: get_objects, set_object_location, lazy_update", "src/engine/fields/sparse_object_grid_2d.rs: get_objects, set_object_location, lazy_update", "src/engine/schedule.rs: step"]}
{"id": "C143", "title": "Agents in a continuous field act at once", "statement": "C141 for agents in a Field2D that look at their neighbours within any distance: after every number of steps get_objects answers for every square exactly the agents of the synchronous population positioned in it, and every search answered what a field showing exactly the previous population answers; the same with the feature parallel.", "quantifier": "all positive sizes and discretizations, toroidal or not, all distances, rules, orders, threads, interleavings, numbers of steps", "why_tests_cant": "all models, orders and lengths of runs", "anchors": ["src/engine/fields/field_2d.rs: get_neighbors_within_distance, set_object_location, lazy_update", "src/engine/schedule.rs: step"]}
{"id": "C144", "title": "A model does not depend on the grid it uses nor on the feature parallel", "statement": "A look-then-place model whose rule uses no randomness holds the same agents, due at the same times, after every number of steps on a DenseGrid2D, on a SparseGrid2D and, with the feature parallel, on either; the same for Field2D with and without the feature; whatever the order within a step.", "quantifier": "all rules, sizes, tie-breakings, threads, interleavings, hash functions, numbers of steps", "why_tests_cant": "compares whole runs of different builds under all schedules", "anchors": ["src/engine/fields/dense_object_grid_2d.rs", "src/engine/fields/sparse_object_grid_2d.rs", "src/engine/fields/field_2d.rs", "src/engine/schedule.rs: step"]}
{"id": "C145", "title": "Printing a network shows its adjacency matrix", "statement": "Printing a Network (Display) shows for its published nodes, in the order of their ids, a matrix of 0 and 1 whose entry i, j is 1 iff the published list of the node with id i contains an edge to id j; it never panics.", "quantifier": "every history of calls, directed or not", "why_tests_cant": "all histories, including removals", "anchors": ["src/engine/fields/network.rs: Display for Network"]}
{"id": "C146", "title": "Keys are ordered, compared and hashed consistently", "statement": "The comparison of Priority is a total order that agrees with its ==, with earlier times, then lower orderings, greater; == of AgentImpl, Int2D and Real2D is an equivalence relation, and equal AgentImpl and Int2D have equal hashes (the contracts that PriorityQueue and HashMap rely on).", "quantifier": "all values, including NaN and infinities", "why_tests_cant": "all triples of values", "anchors": ["src/engine/priority.rs: Ord, PartialOrd, PartialEq", "src/engine/agentimpl.rs: PartialEq, Hash", "src/engine/location.rs: PartialEq, Hash"]}
{"id": "C147", "title": "The columns of a data frame fit their names", "statement": "For every declaration given to build_dataframe! (or build_dataframe_explore!) and all rows made with new, the file that write_csv writes shows in every record each argument of new below the heading of its parameter; writing succeeds.", "quantifier": "every declaration with distinct names, every number of rows", "why_tests_cant": "the macro generates code for unboundedly many declarations; the order of the struct is not the order of the columns", "anchors": ["src/explore/model_exploration.rs: build_dataframe!", "src/explore/genetic.rs: build_dataframe_explore!", "src/lib.rs: write_csv"]}
{"id": "C148", "title": "Rows of explorations travel between processes without loss", "statement": "The MPI datatypes generated by extend_dataframe! and extend_dataframe_explore! exist for every declaration and cover every byte of every field of the struct wherever the compiler places the fields, and nothing else: a received row equals the sent one.", "quantifier": "every declaration, every layout of the struct", "why_tests_cant": "all declarations and layouts", "anchors": ["src/explore/mpi/model_exploration.rs: extend_dataframe!", "src/explore/mpi/genetic.rs: extend_dataframe_explore!"]}
{"id": "C149", "title": "Each repetition stores a picture of each plot", "statement": "simulate! with the terminal leaves, for every repetition and every plot to be stored, a file that shows every series of the plot with all its points, and no two series look alike.", "quantifier": "every set of plots, any number of series and repetitions", "why_tests_cant": "all names and numbers of series", "anchors": ["src/lib.rs: PlotData::store_plot, simulate!"]}
{"id": "C150", "title": "A repeating agent runs once in every parallel step", "statement": "With the feature parallel every pending agent takes exactly one turn in each completed step, whatever its time; a repeating agent that does not stop is pending again one time unit later with its own mutations, and an agent that stopped or was scheduled once does not run again.", "quantifier": "any number of steps and threads, all interleavings of the workers, all agents, states and hooks", "why_tests_cant": "all interleavings and histories", "anchors": ["src/engine/schedule.rs: parallel Schedule::step"]}
{"id": "C151", "title": "The parallel step counter and hooks", "statement": "With the feature parallel, after n completed steps the step counter is n, and the hooks were called in the order update(0) once, then before_step, after_step, update(i) for each step; no hook is called while agents run.", "quantifier": "any program, any number of threads, all interleavings", "why_tests_cant": "all interleavings and histories", "anchors": ["src/engine/schedule.rs: parallel Schedule::step"]}
{"id": "C152", "title": "The parallel clock", "statement": "With the feature parallel the clock shows after each completed step the earliest time that was pending, and it never decreases if nothing is scheduled in the past.", "quantifier": "any number of steps and threads, all interleavings", "why_tests_cant": "all interleavings and histories", "anchors": ["src/engine/schedule.rs: parallel Schedule::step"]}
{"id": "C153", "title": "Parallel ids are consecutive", "statement": "With the feature parallel the ids handed out by schedule_repeating are 0, 1, 2, \u2026 in call order.", "quantifier": "any program with calls before, between and inside (hooks of) steps, all interleavings", "why_tests_cant": "all interleavings and histories", "anchors": ["src/engine/schedule.rs: parallel schedule_repeating"]}
{"id": "C154", "title": "A parallel step with nothing scheduled is harmless", "statement": "With the feature parallel a step with an empty queue runs no agent, calls after_step and update and counts, as it does without the feature.", "quantifier": "any state with nothing pending", "why_tests_cant": "ends the process of the test runner", "anchors": ["src/engine/schedule.rs: parallel Schedule::step"]}
{"id": "C155", "title": "The chart of a plot shows all its points", "statement": "In the terminal the tab of a plot shows each of its series with all points plotted in the repetition, inside the bounds of the chart, under the labels given to addplot!, and the ends of both axes are labelled with their values.", "quantifier": "every sequence of plot! and addplot! calls with finite coordinates, every rounding of sums and products", "why_tests_cant": "all sets of points", "anchors": ["src/utils/monitoring/ui.rs: draw_tab"]}
{"id": "C156", "title": "The series of a chart look different", "statement": "In the terminal no two series of a plot are drawn with the same marker and colour.", "quantifier": "every number of series", "why_tests_cant": "all numbers of series", "anchors": ["src/utils/monitoring/ui.rs: draw_tab"]}
{"id": "C157", "title": "The bars of the repetitions can be read", "statement": "The bar chart of the terminal has one bar for each finished repetition, the newest first, with its number and its steps per second, and the bars are wide enough for both numbers.", "quantifier": "every sequence of events", "why_tests_cant": "all numbers", "anchors": ["src/utils/monitoring/ui.rs: draw_charts"]}
{"id": "C158", "title": "The logs can be read", "statement": "The terminal lists all logs of all repetitions, the newest first, each with its type, padded to one column width, in the colour of the type, and its body; from the log file the types and bodies of the stored logs can be read back.", "quantifier": "every sequence of logs and repetitions", "why_tests_cant": "all texts", "anchors": ["src/utils/monitoring/ui.rs: draw_charts", "src/lib.rs: Display for LogType, Display for Log, simulate!"]}
{"id": "C159", "title": "Visualization: textures show the current state", "statement": "After every frame there is exactly one texture for each batch-rendered field, in the middle of the simulation area, and it shows the field of the current state; drawing does not panic, whatever buttons are pressed.", "quantifier": "every sequence of time steps, frames and buttons; every state and field", "why_tests_cant": "all sequences of events", "anchors": ["src/visualization/fields/number_grid_2d.rs: render, batch_render", "src/visualization/systems/ui_system.rs"]}
{"id": "C160", "title": "Visualization: an arrow has a symmetric head at its end", "statement": "The path of an Arrow is its line and two strokes of the head length from its end, which make the head angle with the line on either side.", "quantifier": "all start and end points that differ, all lengths and angles", "why_tests_cant": "all reals", "anchors": ["src/visualization/utils/arrow.rs: add_geometry"]}
{"id": "C161", "title": "Parallel field calls never hang", "statement": "Under the feature parallel any number of threads may call any functions of any fields at the same time; no interleaving ends with threads waiting for each other, every call returns. This includes iteration and apply_to_all_values with closures that use fields in one order.", "quantifier": "every number of threads, every list of calls, every distribution of keys over shards, every interleaving", "why_tests_cant": "a deadlock shows only in particular interleavings", "anchors": ["src/utils/dbdashmap.rs", "src/utils/ref.rs", "src/engine/fields/field_2d.rs (parallel)", "src/engine/fields/sparse_object_grid_2d.rs (parallel)", "src/engine/fields/dense_object_grid_2d.rs (parallel)", "src/engine/fields/dense_number_grid_2d.rs (parallel)", "src/engine/fields/sparse_number_grid_2d.rs (parallel)"]}
{"id": "C162", "title": "Parallel steps never hang", "statement": "Under the feature parallel every step comes to an end: the threads of a step, the hooks of the state and agents that read and write fields, schedule other agents, list all events and use log!, plot!, addplot! and description! never block each other.", "quantifier": "every number of threads, agents and steps, everything hooks and agents do, every interleaving", "why_tests_cant": "a deadlock shows only in particular interleavings", "anchors": ["src/engine/schedule.rs (parallel): step, schedule_once, schedule_repeating, get_all_events", "src/utils/dbdashmap.rs", "src/lib.rs: log!, plot!, addplot!, description!"]}
{"id": "C163", "title": "Closures on values may use the grids", "statement": "The closure given to apply_to_all_values under the feature parallel may read and write any grid, also the grid it is applied to; the call returns.", "quantifier": "every closure, grid and option, every number of threads and interleaving", "why_tests_cant": "depends on which keys share a shard and on the interleaving", "anchors": ["src/utils/dbdashmap.rs: apply_to_all_values_write, apply_to_all_values_read_write", "src/engine/fields/dense_number_grid_2d.rs (parallel): apply_to_all_values", "src/engine/fields/sparse_number_grid_2d.rs (parallel): apply_to_all_values"]}
{"id": "C164", "title": "The threads of the Simulation Terminal never hang", "statement": "With the terminal, simulate! comes to an end once the user has left the terminal and the simulation is over: the main, monitoring, terminal, CSV and simulation threads never block each other.", "quantifier": "every model, number of repetitions and steps, every key the user presses, every interleaving of the five threads", "why_tests_cant": "a deadlock shows only in particular interleavings", "anchors": ["src/lib.rs: simulate!, log!, plot!, addplot!, description!", "src/utils/monitoring/ui.rs: draw, draw_tab, draw_charts, on_tick"]}
{"id": "C165", "title": "Arguments of the macros may be any expressions", "statement": "The arguments of log!, plot!, addplot! and description! may be any expressions, also calls of functions that log or plot themselves.", "quantifier": "every expression, every number of threads and interleaving", "why_tests_cant": "all expressions", "anchors": ["src/lib.rs: log!, plot!, addplot!, description!"]}
{"id": "C166", "title": "Visualization: systems never hang", "statement": "Whatever systems Bevy runs at the same time, no interleaving ends with systems waiting for each other's state and schedule mutexes.", "quantifier": "every set of systems that do not ask Bevy for conflicting resources, everything the user's callbacks do, every interleaving", "why_tests_cant": "a deadlock shows only in particular interleavings", "anchors": ["src/visualization/systems/simulation_system.rs", "src/visualization/systems/renderer_system.rs", "src/visualization/systems/init_system.rs", "src/visualization/systems/ui_system.rs", "src/visualization/systems/camera_system.rs", "src/visualization/fields/number_grid_2d.rs", "src/visualization/fields/object_grid_2d.rs", "src/visualization/fields/network.rs"]}
{"id": "C167", "title": "No borrow errors in sequential programs", "statement": "No sequence of calls on sequential fields, grids and networks, with closures given to iteration and apply_to_all_values that make further calls on other fields, ever panics because a RefCell is already borrowed, and nothing stays borrowed afterwards.", "quantifier": "every program, every nesting depth of closures, every number of cells visited", "why_tests_cant": "all programs; whether a RefCell is borrowed depends on the whole nesting of calls", "anchors": ["src/engine/fields/field_2d.rs (sequential)", "src/engine/fields/sparse_object_grid_2d.rs (sequential)", "src/engine/fields/dense_object_grid_2d.rs (sequential)", "src/engine/fields/dense_number_grid_2d.rs (sequential)", "src/engine/fields/sparse_number_grid_2d.rs (sequential)", "src/engine/fields/network.rs (sequential)", "src/engine/fields/hnetwork.rs (sequential)"]}
{"id": "C168", "title": "Closures may call the field they run over", "statement": "A closure given to iter_objects, iter_values or apply_to_all_values of a sequential field may call the functions of the same field.", "quantifier": "every kind of field, every option, every function", "why_tests_cant": "which pairs panic depends on which side each of them borrows and how", "anchors": ["src/engine/fields/field_2d.rs (sequential)", "src/engine/fields/sparse_object_grid_2d.rs (sequential)", "src/engine/fields/dense_object_grid_2d.rs (sequential)", "src/engine/fields/dense_number_grid_2d.rs (sequential)", "src/engine/fields/sparse_number_grid_2d.rs (sequential)"]}
{"id": "C169", "title": "Flockers: birds keep their speed", "statement": "In every step of the flockers simulation that comes with the library each bird moves on the torus by its heading, and the heading has the length JUMP unless it is zero.", "quantifier": "every number of birds and steps, every order of the birds in a step, every random numbers, every rounding of the square root; sequential and parallel", "why_tests_cant": "all flocks, orders and interleavings", "anchors": ["tests/model/flockers/bird.rs: step", "tests/model/flockers/state.rs", "src/engine/schedule.rs", "src/engine/fields/field_2d.rs: toroidal_transform"]}
{"id": "C170", "title": "Flockers: birds steer by means", "statement": "The direction of a bird is the sum of its own heading, the way to the mean position of the birds it sees (a tenth), the mean of the ways away from them, the mean of their headings and a random vector of length 1/20; offsets are taken the short way round the torus.", "quantifier": "every bird, every set of birds it sees, every world size and random numbers", "why_tests_cant": "all sets of neighbours", "anchors": ["tests/model/flockers/bird.rs: step", "src/engine/fields/field_2d.rs: toroidal_distance"]}
{"id": "C171", "title": "Single precision: positions are wrapped into the torus", "statement": "In single precision toroidal_transform sends every position to a value of [0, dim) that is the position up to whole turns and rounding.", "quantifier": "every finite single val and dim > 0", "why_tests_cant": "2^64 pairs of singles; the wrong ones are the tiny negative values", "anchors": ["src/engine/fields/field_2d.rs: toroidal_transform"]}
{"id": "C172", "title": "Single precision: torus distance is the shortest way", "statement": "In single precision toroidal_distance changes sign when its arguments are swapped, is at most half a turn long, and its length differs from the shortest way round the torus by at most four roundings.", "quantifier": "all finite singles a, b and dim > 0 whose half is a single", "why_tests_cant": "2^96 triples of singles", "anchors": ["src/engine/fields/field_2d.rs: toroidal_distance"]}
{"id": "C173", "title": "Single precision: the continuous field shows what was placed", "statement": "With positions in single precision, a program that places objects inside the field never panics and every position shows the objects placed in its square of side discretization.", "quantifier": "every field size, discretization and program", "why_tests_cant": "all sizes, singles and programs", "anchors": ["src/engine/fields/field_2d.rs: new, discretize, set_object_location, remove_object_location, get_objects, get_objects_unbuffered, num_objects_at_location"]}
{"id": "C174", "title": "Single precision: neighbourhood search", "statement": "In single precision get_neighbors_within_distance returns the published objects whose distance is at most the given one.", "quantifier": "every field size, discretization, program, position and distance", "why_tests_cant": "all sizes, singles and programs; errors of one unit in the last place", "anchors": ["src/engine/fields/field_2d.rs: get_neighbors_within_distance, get_neighbors_within_relax_distance, check_circle, distance"]}
{"id": "C175", "title": "Single precision: wrapped positions are always safe", "statement": "A program that passes every position through toroidal_transform before giving it to the field, as all the examples do, never panics and every position shows what was placed in its cell, although toroidal_transform may return dim itself.", "quantifier": "every toroidal field of at most 2^24 cells, every program whose positions are results of toroidal_transform", "why_tests_cant": "all sizes, singles and programs; the values that wrap onto dim are rare", "anchors": ["src/engine/fields/field_2d.rs: toroidal_transform, new, discretize, set_object_location, remove_object_location, get_objects"]}
{"id": "C176", "title": "A panic in an agent is never lost", "statement": "If an agent panics in one of its hooks, the step panics in the thread that called it, no agent runs after the panic, and the step neither hangs nor completes; if no agent panics the step is the one without panics. This holds although the parallel schedule ignores the result of its thread scope.", "quantifier": "every model, every set of panicking hooks, every number of threads and every interleaving", "why_tests_cant": "interleavings; panics on worker threads with a mutex held", "anchors": ["src/engine/schedule.rs: step (parallel), step (sequential)"]}
{"id": "C177", "title": "The terminal is left as it was found", "statement": "When a program that called simulate! with the terminal is over, or simulate! has returned, the terminal of the user is out of raw mode and of the alternate screen, the mouse is not captured and the cursor is visible.", "quantifier": "every interleaving of the threads, every call to the terminal succeeding or failing, every moment at which the simulation or the CSV thread may panic", "why_tests_cant": "needs a terminal; panics at arbitrary moments of several threads", "anchors": ["src/lib.rs: simulate! (terminal_thread, sim_thread.join, terminal_thread.join)"]}
{"id": "C178", "title": "Dense grids of every size work", "statement": "A dense grid of every width and height that an i32 can hold (and memory can take) can be made and all its cells are independent: i32 arithmetic does not get in the way, in debug and in release builds.", "quantifier": "every width and height, every program on cells of the grid, debug and release builds", "why_tests_cant": "grids of more than 2^31 cells do not fit in a test", "anchors": ["src/engine/fields/dense_number_grid_2d.rs: new, all functions that index", "src/engine/fields/dense_object_grid_2d.rs: new, all functions that index"]}
{"id": "C179", "title": "Every agent is scheduled, however many there have been", "statement": "schedule_repeating gives each agent an id of its own and schedules it, however many agents have been scheduled before.", "quantifier": "every program, every number of agents, debug and release builds", "why_tests_cant": "needs 2^32 calls", "anchors": ["src/engine/schedule.rs: schedule_repeating"]}
{"id": "C180", "title": "Single precision: the locations the field hands out lie in their cells", "statement": "A location returned by get_empty_bags or get_random_empty_bag, if it is inside the field, is one at which get_objects shows nothing, and iter_objects calls its function with a location at which get_objects shows the object.", "quantifier": "every field of at most 2^24 cells, every discretization, every program, every draw", "why_tests_cant": "which multiples of the discretization are rounded below their cell depends on the bits of the discretization (0.9: the third; 0.7: the thirteenth)", "anchors": ["src/engine/fields/field_2d.rs: not_discretize, discretize, get_empty_bags, get_random_empty_bag, iter_objects, iter_objects_unbuffered, get_objects"]}
{"id": "C181", "title": "Machine floats: a position that is not a number is refused", "statement": "set_object_location accepts a position only if it lies in the field: an object whose coordinates are NaN or infinite (a division by a zero distance, an overflowed velocity) is never shown at a location where it is not; positions that are numbers in the field are stored without a panic, in debug and release builds alike.", "quantifier": "every field of at most 2^24 cells, every discretization, every program, every f32 value, both builds", "why_tests_cant": "NaN and infinities come out of rare runs of an agent's own arithmetic, and the casts that swallow them are silent", "anchors": ["src/engine/fields/field_2d.rs: set_object_location, discretize, get_objects, get_neighbors_within_distance"]}
{"id": "C182", "title": "Machine floats: searches with any distance, in debug and release builds", "statement": "A neighbourhood search with a larger distance returns at least what a guaranteed smaller radius returns, whatever the distance, and panics in neither build.", "quantifier": "every field of at most 2^24 cells, every discretization, every program, every location in the field, every f32 distance, both builds", "why_tests_cant": "the number of cells of a distance is cast to i32 with saturation and then added: the failure needs a distance of 2^31 cells or infinity, and differs between the builds", "anchors": ["src/engine/fields/field_2d.rs: get_neighbors_within_distance, get_neighbors_within_relax_distance"]}
{"id": "C183", "title": "Machine floats: wrapping and distances give numbers", "statement": "toroidal_transform of any f32 is a number from 0 to the dimension, and a search around a position that was wrapped treats it as such.", "quantifier": "every f32 value, every dimension, every field, every distance, both builds", "why_tests_cant": "2^32 values; infinities only appear after an overflow", "anchors": ["src/engine/fields/field_2d.rs: toroidal_transform, toroidal_distance, distance, check_circle, get_neighbors_within_distance, get_neighbors_within_relax_distance"]}
{"id": "C184", "title": "Agents that depend on the order in which they see others still act at once", "statement": "C141 for rules that may depend on the order in which an agent sees the others (as every sum of floats over neighbours does): after every number of steps the scheduled agents and the published field are the population of as many rounds in which all agents act at once, each on the population of the round before in some arrangement; no agent sees a half-updated population, none is seen twice or forgotten because of the order, no step panics, no random value is used twice; the same with the feature parallel and in every repetition of simulate!.", "quantifier": "every lawful field (dense, sparse and parallel grids, Field2D), every rule that keeps agents proper, every order within a step, every number of steps, threads, interleaving, repetition", "why_tests_cant": "the order comes from ties in a heap, from threads and from the hasher; a test sees one order", "anchors": ["src/engine/schedule.rs: step", "src/engine/fields/dense_object_grid_2d.rs", "src/engine/fields/field_2d.rs", "src/lib.rs: simulate!"]}
{"id": "C185", "title": "Machine floats: agents in a continuous field act at once", "statement": "A simulation of agents with f32 positions in a Field2D, with the rounding of the hardware, saturating casts and the i32 arithmetic of debug and release builds: if the rule keeps agents inside the field, no step panics, the field shows exactly the agents of the synchronous population, each in a cell that is a square up to rounding, and every search answers what a field with exactly the previous population answers.", "quantifier": "every field of at most 2^24 cells, every discretization, toroidal or not, every rule (also order dependent), every order, number of steps and repetitions, every correct rounding, both builds", "why_tests_cant": "rounded positions change cells, sums of floats depend on the order, and both builds would have to be run for all of them", "anchors": ["src/engine/fields/field_2d.rs: new, set_object_location, lazy_update, get_objects, get_neighbors_within_distance", "src/engine/schedule.rs: step"]}
{"id": "C186", "title": "The birds of the flockers simulation stay numbers", "statement": "In the flockers simulation with the arithmetic of the code, after every step of every run every bird has a position that is a pair of numbers inside the world, no step panics, and every bird sees exactly the birds of the step before.", "quantifier": "every world of ordinary size, every flock, every stream of random numbers, every order, number of steps, both builds", "why_tests_cant": "the failing draw has probability 2^-48 per turn; overflow would need many birds in one place", "anchors": ["tests/model/flockers/bird.rs: step", "tests/model/flockers/state.rs: init, update", "src/engine/fields/field_2d.rs: toroidal_distance, toroidal_transform"]}
{"id": "C187", "title": "The flockers simulation does not depend on the order of the birds", "statement": "Two runs of the flockers simulation with the arithmetic of the code from the same birds with the same random numbers in every turn end in the same flock, whatever the order in which birds due at the same time run.", "quantifier": "every world of ordinary size, every flock, every two orders, every number of steps", "why_tests_cant": "the difference is one rounding in a sum of three terms; the exact model (C139) cannot see it", "anchors": ["tests/model/flockers/bird.rs: step", "src/engine/schedule.rs: step"]}
{"id": "C188", "title": "Machine floats: the parallel field shows an object only where it is", "statement": "With the feature parallel, after every program of placements, update and lazy_update on a Field2D, with f32 arithmetic: no call panics, get_location gives exactly the position published last, get_objects and num_objects_at_location give at every position exactly the objects published in the cell of this position, and cells are squares of the given size up to rounding, so an object is shown only close to where it is.", "quantifier": "every program, every f32 position (negative, infinite, NaN), every field size and discretization, every number of processors, every hash function, every correct rounding", "why_tests_cant": "the failing positions are those where a cast saturates or a NaN becomes 0; the map depends on the machine", "anchors": ["src/engine/fields/field_2d.rs: new, discretize, set_object_location, update, lazy_update, get_objects, get_location, num_objects_at_location"]}
{"id": "C189", "title": "Machine floats: the continuous field answers alike with and without the feature parallel", "statement": "C109 with the arithmetic of the code: programs of placements and lazy_update give the same answers in both builds of Field2D, element by element: get_objects, num_objects_at_location, get_neighbors_within_distance, get_neighbors_within_relax_distance.", "quantifier": "every program of placements and lazy_update, every field of at most 2^24 cells, every position and distance, debug and release, every number of processors and hash function", "why_tests_cant": "both builds would have to be compared on all programs and positions", "anchors": ["src/engine/fields/field_2d.rs: both implementations of Field2D"]}
{"id": "C190", "title": "Machine floats: a search of the parallel field does not fail for want of memory", "statement": "With the feature parallel both searches of Field2D answer whenever something is published, whatever the distance; the capacity reserved for the answer does not make them panic.", "quantifier": "every program, every field, every distance, debug and release", "why_tests_cant": "the capacity is the area per object times the square of the distance, which overflows only in large or nearly empty fields; the behaviour differs between debug and release", "anchors": ["src/engine/fields/field_2d.rs: get_neighbors_within_distance, get_neighbors_within_relax_distance"]}
{"id": "C191", "title": "Machine floats: agents in the parallel continuous field act at once", "statement": "C185 with the feature parallel: for every number of threads and every interleaving, any number of completed steps leaves the population of as many rounds in which all agents act at once, each on what the sequential field with exactly the agents of the round before answers, in some arrangement; the field shows this population; steps can be completed.", "quantifier": "every field of at most 2^24 cells, every rule that keeps agents inside (also order dependent), affordable searches, every number of threads and processors, interleaving, hash function, number of steps, both builds", "why_tests_cant": "interleavings and hash functions cannot be enumerated", "anchors": ["src/engine/fields/field_2d.rs: set_object_location, lazy_update, get_neighbors_within_distance", "src/engine/schedule.rs: step (parallel)"]}
{"id": "C192", "title": "Machine floats: a step runs exactly the agents that are due", "statement": "With f32 times, NaN and infinities included: a step runs exactly the pending agents of the earliest time, in the order of their orderings, and sets the clock to this time; agents with a later time wait.", "quantifier": "every program and hooks, every f32 time, every resolution of ties in the queue", "why_tests_cant": "the order of the queue is not transitive as soon as one time is NaN; what the heap then does depends on its whole history", "anchors": ["src/engine/priority.rs: cmp", "src/engine/schedule.rs: step, schedule_once, schedule_repeating"]}
{"id": "C193", "title": "No agent waits for ever", "statement": "An agent that is pending gets its turn, at the time and with the ordering it was scheduled for, after finitely many steps, however many other agents there are and however long they go on repeating, if nobody dequeues it and the hooks schedule nothing ahead of it.", "quantifier": "every program, number of agents, agent code and f32 time", "why_tests_cant": "a liveness property: no finite run refutes it, and the failing times lie beyond 2^24 steps of a simulation", "anchors": ["src/engine/schedule.rs: step (item.priority.time + 1.0)"]}
{"id": "C194", "title": "Machine floats: a step loses no agent and runs none twice", "statement": "Whatever the times are, NaN included, a step takes at least one of the pending agents, runs each agent it takes exactly once, leaves all others pending as they are, and puts back exactly those who repeat and do not stop.", "quantifier": "every program and hooks, every f32 time, every resolution of ties in the queue", "why_tests_cant": "as C192", "anchors": ["src/engine/schedule.rs: step"]}
{"id": "C195", "title": "Distributed field on machine floats: every location has a block", "statement": "With f32 coordinates, get_block_by_location finds for every location of the field a block whose box contains it, so it never panics there.", "quantifier": "every field, number of processes, rank, halo distance and location", "why_tests_cant": "needs sides that are not multiples of a power of two and a location in a gap one rounding wide; tests use integer fields and one process", "anchors": ["src/engine/fields/kdtree_mpi.rs: first_subdivision, subdivision, get_block_by_location"]}
{"id": "C196", "title": "Distributed field on machine floats: the neighbours are exactly the touching blocks", "statement": "With f32 coordinates, the neighbour list of a process names exactly the processes whose block touches its own on the torus, and the halo regions are those of exact arithmetic.", "quantifier": "every field, number of processes, rank and halo distance", "why_tests_cant": "the corners of adjacent blocks are computed along different paths and compared with ==; a difference of one rounding loses a neighbour and only shows from 25 processes on for fields at the origin", "anchors": ["src/engine/fields/kdtree_mpi.rs: first_subdivision, calculate_boundary_points, calculate_neighbor_regions, insert"]}
{"id": "C197", "title": "Distributed field on machine floats: blocks and neighbours are consistent whatever the numbers", "statement": "Whatever the numbers, NaN and infinities included, and however operations round: all processes compute the same blocks, one per process, with the ranks as ids, each works on the block of its rank, neighbourhood is mutual and ascending, and the exchange of lengths cannot deadlock.", "quantifier": "every field, number of processes, halo distance, rounding", "why_tests_cant": "a deadlock depends on the neighbour lists of all processes at once and on the schedule", "anchors": ["src/engine/fields/kdtree_mpi.rs: create_tree, first_subdivision, message_exchange"]}
{"id": "C198", "title": "An agent placed again in the same step is shown once, in its newest version", "statement": "Objects are compared by their own ==, which for agents looks at the id only. If an object is placed at a location, changed and placed there again before the next update, the grid or field then holds exactly one object equal to it there, the one placed last (none if an equal one was removed after that).", "quantifier": "every program of placements, removals and lazy_update, every object type with a lawful Eq, DenseGrid2D, SparseGrid2D and Field2D", "why_tests_cant": "the tests place every object once per step, and an equality that ignores the state makes assert_eq! accept the old version", "anchors": ["src/engine/fields/dense_object_grid_2d.rs: set_object_location", "src/engine/fields/sparse_object_grid_2d.rs: set_object_location", "src/engine/fields/field_2d.rs: set_object_location", "tests/model/flockers/bird.rs: PartialEq for Bird"]}
{"id": "C199", "title": "Sequential and parallel genetic search agree", "statement": "Given the same functions and the same initial population, the sequential and the parallel genetic search evaluate the same individuals in the same generations and report the same best individual.", "quantifier": "every fitness, selection, mutation, crossover and comparison function, every population and limit", "why_tests_cant": "fitness and operators are usually random, so a test cannot compare the two runs; the difference needs a good individual in the middle of a generation or a selection of one", "anchors": ["src/explore/genetic.rs: explore_ga_sequential!", "src/explore/genetic.rs: explore_ga_parallel!"]}
{"id": "C200", "title": "A fitness that is not a number does not hide the best individual", "statement": "If some fitness is NaN and some is a number, the genetic search reports an individual whose fitness is a number and that no evaluated individual beats.", "quantifier": "every population, every position of the NaN values, every comparison that is false on NaN", "why_tests_cant": "a NaN arises from rare runs; its effect depends on its position in the population and generation", "anchors": ["src/explore/genetic.rs: explore_ga_sequential!", "src/explore/genetic.rs: explore_ga_parallel!"]}
{"id": "C201", "title": "The cloud genetic search makes its populations as the other modes do", "statement": "Every population after the first comes from the evaluated one before it by selection among its individuals, crossover and then mutation; the search ends at the limit, at the desired fitness or when at most one individual is selected.", "quantifier": "every choice of functions, population, repetition count, number of functions and order of arrival", "why_tests_cant": "needs deployed functions and several generations; random operators hide their order", "anchors": ["src/explore/aws/genetic.rs: explore_ga_aws!"]}
{"id": "C202", "title": "An individual comes back from the cloud functions as it was sent", "statement": "The individual that the cloud genetic search reads from the answer of a function is the one that was evaluated, for every text of an individual.", "quantifier": "every text", "why_tests_cant": "tests use individuals made of digits; the failure needs a quote, a backslash or a line break", "anchors": ["src/explore/aws/genetic.rs: explore_ga_aws!"]}
{"id": "C203", "title": "The terminal shows the repetition that runs and its progress", "statement": "While repetition number k runs the terminal says k, and the progress gauge shows the part of the steps of this repetition that have been made.", "quantifier": "every number of repetitions and steps, every early end, every interleaving of the simulation thread and the terminal thread", "why_tests_cant": "needs a real terminal and two threads; what is shown depends on their interleaving", "anchors": ["src/utils/monitoring/ui.rs: draw_gauges, on_tick, on_rep", "src/lib.rs: simulate!"]}
{"id": "C204", "title": "plot! evaluates its arguments as a function would", "statement": "A call of plot! does what a function with its arguments would do: each expression is evaluated once and the same value is stored, used for the bounds and written to the file.", "quantifier": "every expression given as argument, with any effects and any sequence of values", "why_tests_cant": "tests pass variables; the fault needs an expression with effects, such as a random number", "anchors": ["src/lib.rs: plot!"]}
{"id": "C205", "title": "The speed slider keeps the speed", "statement": "Drawing the window does not change the speed of a visualization: while the slider is not moved the time between two steps stays the same to the nanosecond over any number of frames; when it is moved the period is the one asked for, up to a nanosecond.", "quantifier": "every period between 4 ms and 10 s, every sequence of frames and moves", "why_tests_cant": "the period goes through two divisions in floating point in every frame; a drift shows only for some of ten thousand million periods and after many frames", "anchors": ["src/visualization/systems/ui_system.rs: ui_system"]}
{"id": "C206", "title": "Printed values tell equal from different", "statement": "Two locations, two priorities or two scheduled agents print the same text if and only if they are equal.", "quantifier": "every pair of values, including negative numbers, zeros and values that are no numbers", "why_tests_cant": "the pairs are endless; the exceptions are zeros with different signs, NaN and agents that differ in a flag only", "anchors": ["src/engine/location.rs: Display", "src/engine/priority.rs: Display", "src/engine/agentimpl.rs: Display", "src/engine/schedule.rs: Pair"]}
{"id": "C207", "title": "Visualization: settings are used as given or documented", "statement": "The size of the window and of the simulation, the name and the background are those given last to the builder, or the documented ones if none was given, and each has its effect.", "quantifier": "every sequence of builder calls and values", "why_tests_cant": "the effect needs a window; that a setting has no effect is a statement on all its values", "anchors": ["src/visualization/visualization.rs: Visualization"]}
{"id": "C208", "title": "Explorations run in the mode asked for", "statement": "explore! and evolutionary_search! run in the computing mode asked for whenever the library has the feature that the documentation requires for it.", "quantifier": "every mode and every set of features of the library and of the calling crate", "why_tests_cant": "each set of features is another build; tests run inside the library, where the features of caller and library are the same", "anchors": ["src/explore/model_exploration.rs: explore!", "src/explore/genetic.rs: evolutionary_search!", "src/lib.rs: ComputingMode"]}
{"id": "C209", "title": "DBDashMap: the number of processors may change", "statement": "A double-buffered map publishes, merges and updates all its entries even if the process may use more or fewer processors than when the map was made.", "quantifier": "every program and every number of processors at every call, every hash function", "why_tests_cant": "tests run on one machine with a fixed set of processors; the failure needs the set to be changed from outside between two calls", "anchors": ["src/utils/dbdashmap.rs: shard_amount, lazy_update, update, merge_r_shards"]}
{"id": "C210", "title": "get_edges returns the edges its documentation counts", "statement": "In a network built by adding nodes and edges and published, get_edges(u) returns every edge at u, incoming ones included, and in an undirected network each edge in both directions, as the examples of its documentation count them (src/engine/fields/network.rs:908-962).", "quantifier": "every sequence of add_node (each node once), add_edge, update and lazy_update, directed or not", "why_tests_cant": "all networks; the examples of the documentation are not compiled", "anchors": ["src/engine/fields/network.rs: add_node, add_edge, get_edges (documentation 900-962)"]}
{"id": "C211", "title": "A field has the documented number of empty bags", "statement": "get_empty_bags of a new Field2D returns (width / discretization) * (height / discretization) positions, and one less for every cell that then holds a published object (src/engine/fields/field_2d.rs:701-725).", "quantifier": "every field size, discretization and program with positions inside the field", "why_tests_cant": "all sizes and programs; the example of the documentation is not compiled", "anchors": ["src/engine/fields/field_2d.rs: new, get_empty_bags (documentation 699-725)"]}
{"id": "C212", "title": "Preferential attachment draws with the degrees as weights", "statement": "preferential_attachment_BA and its seeded variant follow the Barabasi-Albert process: starting from one edge between the first two nodes of the node set, each later node i is joined to min(i, init_edges) earlier nodes, drawn by choose_multiple_weighted with weights equal to the degrees (incoming plus outgoing) these nodes have in the graph made so far by the call.", "quantifier": "every network (sequential or parallel) of at least two nodes listed in the node set, init_edges at least 1, every drawing function", "why_tests_cant": "the draws are random, and the weights are internal: a wrong table of weights still yields a graph of the right shape and size", "anchors": ["src/engine/fields/network.rs: preferential_attachment_BA, preferential_attachment_BA_with_seed (1062-1128, 1179-1243; parallel 251-382)"]}
{"id": "C213", "title": "Agents on a network act at once", "statement": "In a simulation whose agents are the nodes of a Network, each of which in its step reads the records of the nodes it is joined to (get_edges, get_object), decides, and puts its own new record with update_node (or dies), with the network updated in the state's update, every step is one synchronous round: all living agents decide on the records of the round before, each with its own random draws, whatever the order of the agents within the step, the number of threads and the interleaving; afterwards the schedule holds exactly the living agents and the network shows every node under its id with its latest record and the edges it was made with, also on networks made by preferential attachment.", "quantifier": "every graph, directed or not; every rule that keeps the identity of the agent; any number of steps; sequential and parallel", "why_tests_cant": "the order within a step and the interleaving are arbitrary; a record leaking into the same step, a lost update or a stale list shows only for some orders", "anchors": ["src/engine/fields/network.rs: get_edges, get_object, update_node, update (963-972, 1000-1003, 1614-1643; parallel 227-244, 540-568), preferential_attachment_BA (1062-1131)", "src/engine/schedule.rs: step", "src/engine/state.rs"]}
{"id": "C214", "title": "An infection on a network passes one edge per step", "statement": "If every agent becomes infected when a node it is joined to is infected, then after n steps exactly those agents are shown as infected that are at most n edges away from one infected at the start.", "quantifier": "every graph, directed or not, every set of infected agents, every number of steps, sequential and parallel", "why_tests_cant": "needs all graphs and all orders of the agents; with in-place updates an infection could run along several edges within one step", "anchors": ["src/engine/fields/network.rs: get_edges, get_object, update_node, update", "src/engine/schedule.rs: step"]}
{"id": "C215", "title": "The order of the agents does not decide which edges a network has", "statement": "When several agents add and remove edges of a Network in the same step, the network published after the step has the same nodes and the same edges (up to the order of the lists) whatever the order in which the agents were scheduled within the step, with and without the feature parallel.", "quantifier": "every history before the step, every set of agents, every permutation of them", "why_tests_cant": "the schedule shuffles nothing but the order within a step depends on priorities and on the interleaving of threads; conflicts show only for some pairs of calls", "anchors": ["src/engine/fields/network.rs: add_edge (741-790; parallel 102-150), remove_edge (1314-1350; parallel 423-460), update (1645-1653)", "src/engine/schedule.rs: step"]}
{"id": "C216", "title": "Agents on a hypernetwork act at once", "statement": "In a simulation whose agents are the nodes of an HNetwork, each of which in its step reads the records of the members of its hyperedges (get_edges, get_object), decides, and puts its own new record with update_node (or dies), with the hypernetwork updated in the state's update, every step is one synchronous round: all living agents decide on the records of the round before, each with its own random draws, whatever the order of the agents within the step, the number of threads, the interleaving, and the order in which the sets yield the members; afterwards the schedule holds exactly the living agents and the hypernetwork shows every node under its id with its latest record and exactly the hyperedges it belongs to.", "quantifier": "every set of agents, every list of different hyperedges; every rule that keeps the identity of the agent; any number of steps; sequential and parallel", "why_tests_cant": "the order within a step, the interleaving and the iteration order of a HashSet are arbitrary; a record leaking into the same step, or a hyperedge missing from the list of one member, shows only for some of them", "anchors": ["src/engine/fields/hnetwork.rs: add_node, add_edge, get_edges, get_object, update_node, update (162-228, 306-335, 580-609)", "src/engine/schedule.rs: step", "src/engine/state.rs"]}
{"id": "C217", "title": "A cellular automaton on a number grid changes all its cells at once", "statement": "In a simulation whose agents each have a cell of a DenseNumberGrid2D or SparseNumberGrid2D and in their step read the published numbers of some cells with get_value, decide, and write their own number with set_value_location (or die and write nothing), with the grid published in the state's update, every step is one synchronous round: all agents decide on the numbers of the round before, each with its own random draws, whatever the order of the agents within the step, the number of threads and the interleaving; afterwards get_value gives in the cell of every living agent its number and in all other cells nothing.", "quantifier": "every set of agents with different cells; every rule that keeps the cell; any number of steps; sequential grids published with update or lazy_update, parallel grids published with lazy_update", "why_tests_cant": "the order within a step and the interleaving are arbitrary; a number leaking into the same step, or one of an older round staying in the swapped buffer, shows only for some automata after some number of steps", "anchors": ["src/engine/fields/dense_number_grid_2d.rs: get_value, set_value_location, update, lazy_update (51-78, 350-354, 492-561)", "src/engine/fields/sparse_number_grid_2d.rs: get_value, set_value_location, update, lazy_update (51-77, 404-456, 489-502)", "src/engine/schedule.rs: step", "src/engine/state.rs"]}
{"id": "C218", "title": "An automaton may be published with update or with lazy_update", "statement": "For the automata of C217 it does not matter, with or without the feature parallel, whether the state publishes the grid with update or with lazy_update: the agents and the published numbers are the same after every number of steps.", "quantifier": "every automaton, any number of steps, both grids, both publications, sequential and parallel", "why_tests_cant": "the two differ only once an agent has died, and then only with the feature parallel; whether the others notice depends on where they look", "anchors": ["src/engine/fields/dense_number_grid_2d.rs: update, lazy_update (72-78, 537-561)", "src/engine/fields/sparse_number_grid_2d.rs: update, lazy_update (71-77, 489-502)", "src/utils/dbdashmap.rs: update, lazy_update"]}
{"id": "C219", "title": "A trail on a number grid evaporates once in every step", "statement": "In a program whose steps deposit numbers with set_value_location, evaporate with apply_to_all_values(f, READWRITE) and publish the grid with update or lazy_update, every cell shows after every number of steps the number deposited last in it, evaporated once in each step since, the step of the deposit included; a cell without deposit is empty.", "quantifier": "every closure, every number of steps with any deposits, both publications, both number grids, with and without the feature parallel", "why_tests_cant": "steps and deposits are unbounded; whether a number is evaporated twice, or not at all, depends on which of the two buffers holds it and hence on when the cell was written before", "anchors": ["src/engine/fields/dense_number_grid_2d.rs: apply_to_all_values, set_value_location, update, lazy_update (34-78, 155-195, 492-561)", "src/engine/fields/sparse_number_grid_2d.rs: apply_to_all_values, set_value_location, update, lazy_update (34-77, 147-181, 453-502)", "src/utils/dbdashmap.rs: apply_to_all_values_read_write"]}
{"id": "C220", "title": "The order of the writes within a step does not matter for a number grid", "statement": "The numbers a number grid publishes do not depend on the order in which the agents of a step write them.", "quantifier": "every set of writes in every step, every order, every number of steps, both number grids, with and without the feature parallel", "why_tests_cant": "the orders are too many to try, and the schedule draws them", "anchors": ["src/engine/fields/dense_number_grid_2d.rs: set_value_location (65-67, 492-501)", "src/engine/fields/sparse_number_grid_2d.rs: set_value_location (65-67, 453-456)", "src/engine/schedule.rs: step"]}
{"id": "C221", "title": "A population with births and deaths goes from generation to generation", "statement": "In a simulation whose agents place themselves and their offspring in a field, and whose state schedules the offspring in after_step with schedule_repeating(agent, schedule.time + 1.0, ordering), the scheduled agents and the published field after every number of steps are the survivors and the offspring of the generation before, in which every agent acted exactly once and saw the same population; every newborn acts for the first time in the step after its birth, its number in the schedule is the next free one, and nobody is lost or doubled.", "quantifier": "every lawful field, every rule of the agents (any number of children, death or survival), every number of steps and initial agents, all orderings, every order among equals, every source of random values; with the feature parallel every number of threads and every interleaving", "why_tests_cant": "populations, generations and orders are unbounded; a newborn that is scheduled a step late, acts in the step of its birth, or shares the number of another agent shows only in some interleavings of births and deaths", "anchors": ["src/engine/schedule.rs: schedule_repeating, step (127-221, 296-313, 347-413)", "src/engine/state.rs: after_step, update", "src/engine/agent.rs: step, is_stopped"]}
{"id": "C222", "title": "Populations grow in the same way on every field of the library", "statement": "C221 for agents on DenseGrid2D, SparseGrid2D and Field2D, with and without the feature parallel: newborn are visible to everybody in the step after their birth, at the place where their parent put them, and the dead are not.", "quantifier": "every size of the fields, every rule, every initial population, number of steps, order, thread count and interleaving", "why_tests_cant": "the fields keep agents in hash maps, bags and shards keyed by agent or place; that exactly the living are published after any history of births and deaths is a statement about all histories", "anchors": ["src/engine/fields/dense_object_grid_2d.rs: set_object_location, get_objects, lazy_update", "src/engine/fields/sparse_object_grid_2d.rs: set_object_location, get_objects, lazy_update", "src/engine/fields/field_2d.rs: set_object_location, get_neighbors_within_distance, lazy_update", "src/engine/schedule.rs: step"]}
{"id": "C223", "title": "The agents that an agent returns from before_step or after_step are scheduled", "statement": "Agent::before_step and Agent::after_step may return agents with ScheduleOptions (\"schedule options to pass to an agent's clone when an agent reproduces\"); after the step every returned agent is scheduled with the ordering and the repeating flag of its options.", "quantifier": "every program, every world, sequential and parallel", "why_tests_cant": "that a returned value is used by nobody cannot be told from runs of programs that return None; every example of the crate does", "anchors": ["src/engine/agent.rs: before_step, after_step (26-39)", "src/engine/schedule.rs: step (185-211, 395-408), ScheduleOptions (418-423)"]}
{"id": "C224", "title": "Repetitions are independent", "statement": "Every repetition of simulate!, simulate_old! and simulate! with the terminal begins as if State::reset had been called after the one before; a model without randomness ends every repetition as the first, and as check_reproducibility! finds it.", "quantifier": "every model, every number of steps and repetitions", "why_tests_cant": "Tests make one repetition, or look at a model whose init sets everything; whether something of an earlier repetition is left depends on the model, its fields and how they are published.", "anchors": ["src/lib.rs:1011-1120", "src/lib.rs:1158-1168", "src/lib.rs:1507-1574", "src/lib.rs:1934-1965", "src/engine/state.rs:35-53", "tests/model/flockers/state.rs:41-60"]}
{"id": "C225", "title": "A distributed model comes to the agents of one process", "statement": "A model on the distributed field whose agents look around and then act, with the exchange of agents and halos at the end of every step, has after every step the same agents whatever the number of processes is; none is lost or doubled, and each is with the process of its block.", "quantifier": "every rule of local agents, every placement of agents in the field, every number of processes and of steps", "why_tests_cant": "Tests of the distributed field need MPI and run with one number of processes; that no agent is lost at the borders holds or fails by where the agents happen to be.", "anchors": ["src/engine/fields/kdtree_mpi.rs:171-319", "src/engine/fields/kdtree_mpi.rs:494-555", "src/engine/fields/kdtree_mpi.rs:705-790", "src/engine/fields/kdtree_mpi.rs:858-880"]}
{"id": "C226", "title": "A distributed agent sees what it would see on one process", "statement": "After every step the search around an agent, made at its own process, returns the agents that the search returns when one process has the whole field.", "quantifier": "every rule of local agents, every placement of agents in the field, every number of processes and of steps, every agent", "why_tests_cant": "Which agents are missing depends on where the borders of the blocks are and on corners of the torus, for every number of processes anew.", "anchors": ["src/engine/fields/kdtree_mpi.rs:380-450", "src/engine/fields/kdtree_mpi.rs:519-555", "src/engine/fields/kdtree_mpi.rs:630-696", "src/engine/fields/kdtree_mpi.rs:705-790"]}
{"id": "C227", "title": "The table of an exhaustive exploration grows with the number of configurations", "statement": "The table of indices an exhaustive exploration builds before its first run has one entry for each configuration and input list, so the memory it takes is in proportion to the number of runs.", "quantifier": "all numbers and lengths of input lists", "why_tests_cant": "Tests use two or three short lists, where a table that is too long is not seen: the additional entries are never read. It shows as a process that runs out of memory before its first run.", "anchors": ["src/lib.rs:1719-1744", "src/explore/model_exploration.rs:248-262", "src/explore/model_exploration.rs:368-383"]}
{"id": "C228", "title": "A later simulation leaves the results of an earlier one", "statement": "When a program calls simulate! several times, the csv files of each call are after the last one as that call has left them, and the log file has the stored logs of all calls.", "quantifier": "every sequence of calls with every plots, points, logs and numbers of repetitions", "why_tests_cant": "Tests make one call of simulate! in a process and look at the files of that call; what a later call with other plots does to them is not looked at.", "anchors": ["src/lib.rs:688-690", "src/lib.rs:940-1004", "src/lib.rs:1131-1145", "src/lib.rs:1355-1390"]}
{"id": "C229", "title": "The results of a genetic search can be read from its csv file", "statement": "When the rows that a genetic search returns are written with write_csv and read with load_csv!, the generations, indexes, fitness values and individuals are those of the search.", "quantifier": "every search result with generations and indexes that their types have", "why_tests_cant": "Tests do not read the file; that no individual at all is read as it was is a statement about every text.", "anchors": ["src/explore/genetic.rs:41-50", "src/explore/genetic.rs:401-406", "src/explore/genetic.rs:478-483", "src/lib.rs:1776-1787", "src/lib.rs:1874-1894"]}
{"id": "C230", "title": "The exchange of lengths keeps the rules of MPI and ends", "statement": "In message_exchange every process posts a receive for each neighbour and starts a send to it in ready mode. Every such send finds its receive posted, as MPI requires, and whatever the order in which the processes get to their calls, the exchange ends with all lengths received.", "quantifier": "every number of processes from 2 on, every field, every radius, every order of the calls of the processes", "why_tests_cant": "What happens depends on the timing of processes; tests run a few timings on one MPI library, and a library may forgive what MPI forbids.", "anchors": ["src/engine/fields/kdtree_mpi.rs:733-751"]}
{"id": "C231", "title": "A model moved from Field2D to the distributed field goes through the same agents", "statement": "A model written for a toroidal Field2D, run on the distributed field with any number of processes, goes through the same agents in every step.", "quantifier": "every rule of the agents, every placement, every number of processes and of steps", "why_tests_cant": "Tests do not run a model on both fields; the two searches differ only for agents at the very place asked for, which random positions hit only with the agent itself.", "anchors": ["src/engine/fields/kdtree_mpi.rs:630-696", "src/engine/fields/field_2d.rs:386-440", "src/engine/fields/field_2d.rs:838-846", "src/engine/fields/field_2d.rs:905-921", "src/engine/fields/kdtree_mpi.rs:546-555"]}
{"id": "C232", "title": "Every plot has a tab in the terminal", "statement": "Each plot that exists when the terminal is drawn has exactly one tab, which the arrows reach, which shows that plot's chart with all its series, and which keeps its place whatever happens later.", "quantifier": "every sequence of keys, messages and drawings, every set of plots, every name of a plot", "why_tests_cant": "The tabs depend on the order of a hash map, on the keys pressed and on plots that come and go with the repetitions; tests have no terminal and no reason to call a plot Home.", "anchors": ["src/utils/monitoring/ui.rs:283-327", "src/utils/monitoring/ui.rs:328-334", "src/utils/monitoring/ui.rs:35-51"]}
{"id": "C233", "title": "Leaving the terminal stops the simulation, and only that is reported as an interruption", "statement": "When the user leaves the terminal with q, at most the step being made is finished: no further step is made and no further repetition begun. What was simulated is what the same simulation without terminal does, up to the step reached, and the results of every repetition begun are stored. The log says that the user interrupted the simulation exactly when that happened.", "quantifier": "every model, every number of steps and repetitions, every interleaving of the terminal thread with the simulation thread, the key q in any of its rounds or in none", "why_tests_cant": "The message depends on whether one thread has ended when the other sends; tests have no terminal and cannot fix the interleaving.", "anchors": ["src/lib.rs:838-940", "src/lib.rs:1011-1125"]}
{"id": "C234", "title": "A plot is there in every repetition and shows the points of that repetition", "statement": "A plot added with addplot!, before the simulation or in init, exists in every repetition, and at the end of a repetition it shows exactly the points plotted to it in that repetition, under every driver.", "quantifier": "every sequence of addplot!/plot! calls before the simulation and in each of any number of repetitions, with and without the terminal", "why_tests_cant": "Tests never look at the plots, whose contents depend on where the plot was added, on the driver and on the repetitions before.", "anchors": ["src/lib.rs:1011-1017", "src/lib.rs:1149-1168", "src/lib.rs:1240-1280", "src/lib.rs:1355-1390"]}
{"id": "C235", "title": "The csv file of a plot has a line for each of its points", "statement": "The csv file of a plot is, character by character, the header with the labels of the plot and one line for each point plotted to it with csv: true in that repetition, in order, whatever other plots there are.", "quantifier": "every set of plots and labels, every order of the hash set PLOT_NAMES, every number of repetitions and points", "why_tests_cant": "Two plots can have the same file, whose bytes then depend on the lengths of the labels and on the order of a randomly seeded hash set.", "anchors": ["src/lib.rs:949-1004", "src/lib.rs:1240-1280", "src/lib.rs:1355-1390"]}
{"id": "C236", "title": "The same seed gives the same random network", "statement": "preferential_attachment_BA_with_seed, called with the same node set, number of edges and seed on two networks with the same nodes, gives the same edges in the same order, as the example in its documentation asserts, whatever edges the networks had before; and so does add_prob_edge with a seed.", "quantifier": "every node set, number of edges, seed and generator; every network and history before the call; every number of processors and every hash function; with the feature parallel and without", "why_tests_cant": "The example compares two fresh undirected networks in one process. The hash function differs between processes, and edges shown before the call are not in the example.", "anchors": ["src/engine/fields/network.rs:161-191", "src/engine/fields/network.rs:317-382", "src/engine/fields/network.rs:1140-1254", "src/utils/dbdashmap.rs:11-13"]}
{"id": "C237", "title": "The bayesian search evaluates the sample with the highest expected improvement", "statement": "acquisition_function returns the point with the highest expected improvement, as its documentation says: of all samples, the one whose objective value, if it is a normal variable with the predicted mean and variance, is expected to be furthest above the best point known.", "quantifier": "every set of evaluated points and samples, every prediction of means and variances by the gaussian process", "why_tests_cant": "The expected improvement is an integral over a normal distribution; a test can compare the formula in the code with a few numbers only.", "anchors": ["src/explore/bayesian.rs:260-329"]}
{"id": "C238", "title": "A random empty bag is drawn fairly", "statement": "If the generator is uniform, get_random_empty_bag returns every location without objects with the same chance: on the dense grids and the field each gets 1 of the n empty ones; on the sparse grids after k draws each has been returned with the same chance, which tends to 1/n, and the chance that the call has not returned yet is ((N-n)/N)^k for N cells.", "quantifier": "every content of the grid, every number of draws", "why_tests_cant": "a test of a random choice can only look at frequencies of a few grids", "anchors": ["src/engine/fields/dense_number_grid_2d.rs: get_random_empty_bag", "src/engine/fields/sparse_number_grid_2d.rs: get_random_empty_bag", "src/engine/fields/dense_object_grid_2d.rs: get_random_empty_bag", "src/engine/fields/sparse_object_grid_2d.rs: get_random_empty_bag", "src/engine/fields/field_2d.rs: get_random_empty_bag"]}
{"id": "C239", "title": "A call on a shared map is answered as of one moment", "statement": "When several threads use one DBDashMap, each call behaves as if it took place at one moment between its beginning and its end: what len, is_empty and w_keys answer was true at that moment, and clear and apply_to_all_values_write change all entries at that moment.", "quantifier": "every map, every number of other threads, everything they insert, remove or change, every interleaving with the locks of the call", "why_tests_cant": "interleavings of threads", "anchors": ["src/utils/dbdashmap.rs: insert, remove, get_write, len, is_empty, w_keys, clear, apply_to_all_values_write"]}
{"id": "C240", "title": "The blocks of the distributed field are of nearly equal size", "statement": "With n processes no block is more than twice as large as another, every block has at most twice and at least half of the n-th part of the field, with a power of two of processes all blocks are equal, and the blocks have the proportions of the field up to a factor of two.", "quantifier": "every number of processes, every field size", "why_tests_cant": "every number of processes, most of which no test machine has", "anchors": ["src/engine/fields/kdtree_mpi.rs: create_tree, first_subdivision, split"]}
{"id": "C241", "title": "Being neighbours is mutual", "statement": "If the search of a field at the location of one object finds another object, the same search at the location of the other finds the first.", "quantifier": "every program of placements, every pair of objects, every distance, plain and toroidal fields", "why_tests_cant": "pairs of locations, distances and cell sizes are unbounded, and the answers depend on where the cells begin", "anchors": ["src/engine/fields/field_2d.rs: get_neighbors_within_distance, get_neighbors_within_relax_distance", "src/engine/fields/field_2d.rs: check_circle"]}
{"id": "C242", "title": "Distances in a field form a metric", "statement": "The distance of two positions of a plain or toroidal field is symmetric, 0 for the same place only, obeys the triangle inequality, does not change when both positions are moved by the same vector or one of them by whole turns, and on a torus is at most half the diagonal.", "quantifier": "all positions, inside or outside the field, all field sizes, plain and toroidal", "why_tests_cant": "the triangle inequality is about all triples of positions", "anchors": ["src/engine/fields/field_2d.rs: distance, toroidal_distance, toroidal_transform"]}
{"id": "C243", "title": "The degrees of a network add up to its edges", "statement": "After any calls and a publication, the numbers of edges that get_edges shows for the nodes add up to the number of edges of the network (those add_edge accepted minus those the removals answered): once in a directed network, twice in an undirected one.", "quantifier": "all histories of calls in which nodes are not removed, directed and undirected networks", "why_tests_cant": "the sum over all nodes is an invariant of every history of calls", "anchors": ["src/engine/fields/network.rs: add_node, add_edge, remove_edge, remove_incoming_edges, remove_outgoing_edges, remove_all_edges, get_edges, update"]}
{"id": "C244", "title": "The neighbours of an object do not depend on where in the field they are", "statement": "If all the calls of a program and the position asked from are moved by the same vector, and everything stays in the field (on a torus: is wrapped into it), then both searches of a continuous field find the same objects as before.", "quantifier": "all histories of calls, positions, distances, vectors, plain and toroidal fields", "why_tests_cant": "it relates the runs of two programs, for all vectors", "anchors": ["src/engine/fields/field_2d.rs: get_neighbors_within_distance, get_neighbors_within_relax_distance, set_object_location, discretize"]}
{"id": "C245", "title": "Only the order of times and orderings matters", "statement": "If every time and every ordering a program passes to the schedule is replaced, keeping which is earlier and which comes first, and one time unit stays one time unit, then the same agents run in the same steps and in the same order, with the same states and answers. In particular a program all of whose agents are scheduled later by the same amount runs the same, and orderings can be renumbered.", "quantifier": "all programs (agents, states, hooks, sequences of calls), all replacements of times and orderings", "why_tests_cant": "it relates the runs of two programs, for all replacements", "anchors": ["src/engine/schedule.rs: schedule_once, schedule_repeating, dequeue, step", "src/engine/priority.rs: cmp, PartialOrd"]}
{"id": "C246", "title": "The order in which agents are put on the schedule does not matter unless they tie", "statement": "Scheduling the same agents in another order gives the same simulation - states, which agent runs when and in which order, clock and what is pending - up to the numbers the schedule hands out, on every implementation of the priority queue, as long as no two pending agents ever share both time and ordering. Giving every agent its own ordering is enough if the hooks schedule nothing.", "quantifier": "all agents, states and hooks that do not look at the schedule and only schedule new agents, all permutations, any number of steps", "why_tests_cant": "it relates the runs of two programs for all permutations and all queue implementations", "anchors": ["src/engine/schedule.rs: schedule_repeating, step", "src/engine/priority.rs: cmp"]}
{"id": "C247", "title": "The unit of length does not matter", "statement": "A program on a Field2D that gives all its lengths - width, height, discretization, positions and search distances - in another unit gets the same answers: the same objects are found, the same calls panic, and the locations handed out are the same in the new unit.", "quantifier": "all fields, all histories of calls, all queries, all units", "why_tests_cant": "it relates two runs for all programs and all conversion factors; a test compares one pair", "anchors": ["src/engine/fields/field_2d.rs: new, discretize, not_discretize, set_object_location, remove_object_location, lazy_update, get_neighbors_within_distance, get_neighbors_within_relax_distance, get_objects, iter_objects, get_empty_bags, check_circle, distance, toroidal_distance, toroidal_transform"]}
{"id": "C248", "title": "Objects do not influence each other", "statement": "What a program learns about some of its objects from a grid or a field does not depend on the others: leave out all calls about objects outside a set, and the bags, the neighbours, the calls of iter_objects and the locations found are the same for the objects of the set.", "quantifier": "all sets of objects closed under the objects' own ==, all histories of calls, all queries", "why_tests_cant": "it relates two runs for all programs and all choices of objects to leave out; a test leaves out one object in one program", "anchors": ["src/engine/fields/dense_object_grid_2d.rs: set_object_location, remove_object_location, update, lazy_update, apply_to_all_values, get_objects, get_location, iter_objects", "src/engine/fields/sparse_object_grid_2d.rs: set_object_location, remove_object_location, update, lazy_update, apply_to_all_values, get_objects, get_location, iter_objects", "src/engine/fields/field_2d.rs: set_object_location, remove_object_location, lazy_update, get_neighbors_within_distance, get_neighbors_within_relax_distance, get_objects, iter_objects"]}
{"id": "C249", "title": "The order of calls within a step does not matter", "statement": "Between two updates, calls that place or remove different objects may be made in any order: the grid or field ends up with the same objects in every cell, so all queries give the same answers up to the order of objects in a cell, and no order panics if another does not.", "quantifier": "all histories of calls, all reorderings by exchanging neighbouring calls about different objects, all queries", "why_tests_cant": "the number of orders grows factorially and the relation is between two runs; a test compares two fixed orders", "anchors": ["src/engine/fields/dense_object_grid_2d.rs: set_object_location, remove_object_location, update, lazy_update, apply_to_all_values", "src/engine/fields/sparse_object_grid_2d.rs: set_object_location, remove_object_location, update, lazy_update, apply_to_all_values", "src/engine/fields/field_2d.rs: set_object_location, remove_object_location, lazy_update, get_neighbors_within_distance"]}
{"id": "C250", "title": "The two axes are treated alike", "statement": "Exchanging the roles of width and height, and of the two coordinates in every call, changes nothing but the names: the grid or field answers every query about the exchanged place as the original does about the place itself, with the same neighbours and the same empty cells.", "quantifier": "all sizes, all histories of calls, all places, all distances", "why_tests_cant": "the claim relates every program to its mirror image; a test fixes one program, and tests with square grids cannot tell the axes apart", "anchors": ["src/engine/fields/dense_number_grid_2d.rs: set_value_location, get_value, get_empty_bags", "src/engine/fields/sparse_number_grid_2d.rs: set_value_location, get_value, get_empty_bags", "src/engine/fields/dense_object_grid_2d.rs: set_object_location, get_objects, get_empty_bags", "src/engine/fields/sparse_object_grid_2d.rs: set_object_location, get_objects, get_empty_bags", "src/engine/fields/field_2d.rs: discretize, get_neighbors_within_distance, get_neighbors_within_relax_distance, get_empty_bags"]}
{"id": "C251", "title": "Names of objects and agents do not matter", "statement": "Giving every object or agent another name, without confusing different ones, changes nothing but the names: the grids, the field and the schedule do to the renamed program exactly what they do to the original one, panics included.", "quantifier": "all injective-for-== renamings into any other type, all sizes, all histories of calls incl. apply_to_all_values with corresponding closures, all queries; for the schedule all renamings, all models, all tie-breaks, all histories", "why_tests_cant": "the claim relates the runs of one program over different types of objects; a test fixes the type and the objects", "anchors": ["src/engine/fields/dense_object_grid_2d.rs: all methods", "src/engine/fields/sparse_object_grid_2d.rs: all methods", "src/engine/fields/field_2d.rs: set_object_location, remove_object_location, get_neighbors_within_distance, get_neighbors_within_relax_distance, get_objects, iter_objects", "src/engine/schedule.rs: schedule_once, schedule_repeating, dequeue, get_all_events, step"]}
{"id": "C252", "title": "The description popup is on the screen and centred", "statement": "The popup with the description of the model is painted exactly when it is switched on and there is a description; it takes three fifths of the columns and one fifth of the rows, lies within the screen and is centred up to two cells in both directions, for every size of terminal.", "quantifier": "all screens up to 655 by 655 cells, all descriptions, all layouts that give consistent percentages their shares; for centered_rect all even percentages up to 100 (over 100 it panics)", "why_tests_cant": "a test fixes the size of the terminal; whether rounding can push the popup off the screen or off centre needs all sizes", "anchors": ["src/utils/monitoring/ui.rs: centered_rect, show_popup, draw"]}
{"id": "C253", "title": "Names of nodes, labels and weights do not influence a network", "statement": "Replacing every node by another one (without confusing different nodes), every label and every weight changes nothing but these: the network built by the renamed calls has the same ids and the same edges with the new labels and weights, gives the same flags and panics exactly when the original does, also when grown by preferential attachment with the same draws.", "quantifier": "all injective renamings of nodes into any type, all maps of labels and weights (also constant ones), directed and undirected networks, all histories of calls, all draws that do not look at names", "why_tests_cant": "the claim relates runs over different types of nodes, labels and weights; a test fixes them", "anchors": ["src/engine/fields/network.rs: add_node, add_edge, get_edge, get_edges, get_id, get_object, remove_edge, remove_incoming_edges, remove_outgoing_edges, remove_node, remove_all_edges, update_node, update, lazy_update, preferential_attachment_BA"]}
{"id": "C254", "title": "Names of nodes, labels and weights do not influence a hypernetwork", "statement": "Replacing every node by another one (without confusing different nodes), every label and every weight changes nothing but these: the hypernetwork built by the renamed calls panics exactly when the original does, has the same ids and the same hyperedges with the new labels and weights, and every further call gives the same flags and removed hyperedges.", "quantifier": "all injective renamings of nodes into any type, all maps of labels and weights (also constant ones), all histories of calls", "why_tests_cant": "the claim relates runs over different types of nodes, labels and weights; a test fixes them", "anchors": ["src/engine/fields/hnetwork.rs: add_node, add_edge, get_edge, get_edges, get_id, get_object, remove_edge, remove_object, remove_all_edges, update_node, update"]}
{"id": "C255", "title": "The degrees of a hypernetwork add up to the sizes of its hyperedges", "statement": "If nodes are added once each and never removed and no add_edge names a node twice, then after update the numbers of hyperedges that get_edges lists for the nodes add up to the sizes of all hyperedges, each hyperedge counted once.", "quantifier": "all such histories of calls, all nodes, labels and weights", "why_tests_cant": "the sum runs over all nodes after an arbitrary history; a test counts in one network", "anchors": ["src/engine/fields/hnetwork.rs: add_node, add_edge, get_edges, remove_edge, remove_all_edges, update"]}
{"id": "C256", "title": "Machine floats: names, other objects and the order of calls do not matter in a continuous field", "statement": "With the arithmetic of the machine (NaN, infinities, rounding, panicking or wrapping integers) a program on a Field2D depends neither on the names of the objects, nor on the other objects, nor on the order of calls about different objects between two updates: renaming the objects renames the answers and panics in the same cases, leaving out the calls about other objects leaves the answers about the remaining ones, and exchanging independent calls changes the order within a bag only.", "quantifier": "all sizes, discretizations and positions (also NaN and infinite), debug and release builds, all histories of calls, all injective renamings, all sets of objects, all sequences of exchanges", "why_tests_cant": "the claims relate two runs each and quantify over all floats; a test runs one program", "anchors": ["src/engine/fields/field_2d.rs: new, set_object_location, remove_object_location, get_objects, get_objects_unbuffered, get_neighbors_within_distance, get_neighbors_within_relax_distance, update, lazy_update"]}
{"id": "C257", "title": "The hash function, the number of processors and the names do not influence a model run under the feature parallel", "statement": "Under the feature parallel every process draws its own hash function and shards its maps according to the number of processors. What a program reads from grids, fields and networks is the same in every process: two runs with different hash functions, numbers of processors and names of objects panic in the same call or answer every query alike, up to the names; calls that return all edges of a node return the same edges in some order.", "quantifier": "all hash functions, all numbers of processors, all types of objects and renamings that keep identities apart, all histories of calls", "why_tests_cant": "the hash function is drawn at the start of the process, so that a test sees one of them per run and cannot choose it", "anchors": ["src/utils/dbdashmap.rs: new, hash_usize, determine_shard, shard_amount, keys, update", "src/engine/fields/dense_number_grid_2d.rs, src/engine/fields/sparse_number_grid_2d.rs, src/engine/fields/dense_object_grid_2d.rs, src/engine/fields/sparse_object_grid_2d.rs, src/engine/fields/field_2d.rs, src/engine/fields/network.rs: the definitions under the feature parallel"]}
{"id": "C258", "title": "Under the feature parallel objects do not influence each other", "statement": "Under the feature parallel, what a grid or field says about some of its objects does not depend on the other objects: leaving out all calls about the other objects leaves the answers about the remaining ones as they are (what they are, where they are, in which bags and in whose neighbourhood), and leaving out the values of other cells of a number grid leaves the values of the remaining cells as they are.", "quantifier": "all sets of objects or cells, all histories of calls, all hash functions", "why_tests_cant": "a test runs one program; this compares a program with all programs obtained by leaving out objects", "anchors": ["src/engine/fields/dense_number_grid_2d.rs, src/engine/fields/sparse_number_grid_2d.rs: set_value_location, apply_to_all_values, update, lazy_update under the feature parallel", "src/engine/fields/dense_object_grid_2d.rs, src/engine/fields/sparse_object_grid_2d.rs: set_object_location, remove_object, remove_object_location, update, lazy_update under the feature parallel", "src/engine/fields/field_2d.rs: set_object_location, update, lazy_update, get_neighbors_within_distance, get_neighbors_within_relax_distance under the feature parallel"]}
{"id": "C259", "title": "Under the feature parallel the order of calls about different objects does not matter", "statement": "Under the feature parallel the agents of a step run in an arbitrary order. Exchanging calls about different objects changes no answer of a grid or field except for the order of the objects in a bag, among neighbours and in an iteration.", "quantifier": "all histories of calls, all reorderings of calls about different objects, all hash functions", "why_tests_cant": "there are as many orders as permutations of the agents, and the scheduler picks one", "anchors": ["src/engine/fields/dense_object_grid_2d.rs, src/engine/fields/sparse_object_grid_2d.rs: set_object_location, remove_object, remove_object_location, update, lazy_update under the feature parallel", "src/engine/fields/field_2d.rs: set_object_location, update, lazy_update, get_neighbors_within_distance, get_neighbors_within_relax_distance under the feature parallel", "src/engine/schedule.rs: step under the feature parallel"]}
{"id": "C260", "title": "The two axes are treated alike under the feature parallel and with machine floats", "statement": "Under the feature parallel, exchanging the axes of a grid or field, in its size, in all calls and in all queries, exchanges the axes in all answers and changes nothing else, apart from the order of neighbours and of listed cells; a search panics in the one field if and only if it panics in the other. This holds of f32 arithmetic, NaN and infinities included. Without the feature it holds of f32 arithmetic for fields of at most 2^24 cells, positions in the field and distances of at most 2^31 - 2^25 cells.", "quantifier": "all sizes, histories of calls, hash functions, positions and distances, in debug and release builds", "why_tests_cant": "a test runs one program on one field; this compares every program with its mirror image, rounding included", "anchors": ["src/engine/fields/dense_number_grid_2d.rs, src/engine/fields/sparse_number_grid_2d.rs: all methods under the feature parallel", "src/engine/fields/dense_object_grid_2d.rs, src/engine/fields/sparse_object_grid_2d.rs: all methods under the feature parallel", "src/engine/fields/field_2d.rs: discretize, set_object_location, remove_object_location, get_objects, get_neighbors_within_distance, get_neighbors_within_relax_distance, with and without the feature parallel", "src/engine/fields/field_2d.rs: check_circle, distance"]}
{"id": "C261", "title": "An individual is judged on fresh runs of its own", "statement": "In every mode of the genetic search the fitness of an individual is the fitness function of the user applied to exactly `reps` runs, where run number r starts with the state made of r and the individual and a new schedule and goes on until the limit of steps or the end condition. It depends neither on the other individuals nor on the generation, the index, the process or earlier runs: the same individual has the same fitness wherever it appears. The state column of the parallel search shows the state after the last run.", "quantifier": "all simulations, individuals, populations, numbers of repetitions, steps and processes, callbacks and generations", "why_tests_cant": "a test sees the fitness of a few individuals; independence of everything else is a statement about all populations and searches", "anchors": ["src/explore/genetic.rs: explore_ga_sequential!, explore_ga_parallel!: the loop over the repetitions of an individual", "src/explore/mpi/genetic.rs: explore_ga_distributed_mpi!: the loop over the repetitions of an individual", "src/explore/aws/genetic.rs: explore_ga_aws!: func"]}
{"id": "C262", "title": "A genetic search that hands on its best individual never gets worse", "statement": "If the fitness of an individual depends on the individual only, and selection, crossover and mutation hand on a best individual of every generation, then for every row of the result and every later generation there is a row of that generation that is at least as good, also if the evaluation of the last generation was cut short by a good individual; so the best individual that is reported has a peer in the last generation.", "quantifier": "all populations, callbacks with this property, comparisons (strict or not), limits, sequential, parallel and distributed (as far as it agrees with the parallel search)", "why_tests_cant": "a test runs a few searches for a few generations; this is a statement about all of them", "anchors": ["src/explore/genetic.rs: explore_ga_sequential!, explore_ga_parallel!: the loop over the repetitions of an individual", "src/explore/mpi/genetic.rs: explore_ga_distributed_mpi!: the loop over the repetitions of an individual"]}
{"id": "C263", "title": "Machine floats: being neighbours is mutual", "statement": "With the arithmetic of f32 and i32, with and without the feature parallel, one object finds another by a neighbour search from its position exactly if the other finds it by the same search from its own position. The distance that the machine computes is symmetric, rounding included.", "quantifier": "all fields whatever their history, positions, distances, roundings that are symmetric, debug and release builds", "why_tests_cant": "a test looks at a few pairs of objects; asymmetries sit at cells and borders that depend on the rounding of a division", "anchors": ["src/engine/fields/field_2d.rs: get_neighbors_within_distance, get_neighbors_within_relax_distance, with and without the feature parallel", "src/engine/fields/field_2d.rs: discretize, t_transform, check_circle, distance, toroidal_distance"]}
{"id": "C264", "title": "Machine floats: names of agents, the order of scheduling and the sizes of times and orderings do not matter", "statement": "With the times of the code (f32 with infinities and NaN) a simulation stays the same if its agents get other names, if times and orderings are replaced by others in the same order, and if the agents are put on the schedule in another order, unless two pending agents share time and ordering.", "quantifier": "all models, hooks, programs of scheduling calls and steps, numbers of steps, and ways of the priority queue to resolve ties", "why_tests_cant": "a test compares a few runs; what a priority queue does with incomparable times depends on the order of insertion", "anchors": ["src/engine/schedule.rs:283-413 (schedule_once, schedule_repeating, step)", "src/engine/priority.rs:22-38 (Ord for Priority)"]}
{"id": "C265", "title": "Parts of a network without edges between them do not influence each other", "statement": "If no edge is ever made between the nodes of one part of a network and the other nodes, then the part shows, after any calls, what it shows if only the calls about it are made: the same nodes, the same edges in the same order and the same objects.", "quantifier": "all partitions of the nodes and all histories of calls without an edge between the parts", "why_tests_cant": "ids are handed out network-wide and the removal of edges walks through all nodes, so what one part does can show up in another part only after particular histories of both", "anchors": ["src/engine/fields/network.rs: add_node, add_edge, remove_edge, remove_incoming_edges, remove_outgoing_edges, remove_all_edges, update_node, update, lazy_update, get_edges, get_object"]}
{"id": "C266", "title": "Agents that only watch do not disturb a simulation", "statement": "If some agents only write down what they see and the others do not read these notes, then after any number of steps the simulation has the same state, the same agents pending and the same step counter as the simulation without them.", "quantifier": "all models, hooks that do not look at the schedule, plans of agents, watchers among them, numbers of steps and ways of the priority queue to resolve ties, with and without the watchers", "why_tests_cant": "a test compares one simulation with and without its watchers; the numbers of the agents, the shape of the heap and the times to which the steps go are different in the two", "anchors": ["src/engine/schedule.rs:283-413 (schedule_once, schedule_repeating, step)", "src/engine/agent.rs (Agent)", "src/engine/state.rs (State)"]}
{"id": "C267", "title": "A search within a larger distance finds more", "statement": "Of two searches from the same place in the same field, the one within the larger distance finds everything that the other finds, and in the same order; if it does not panic, the other does not either.", "quantifier": "all fields however they came about, locations, pairs of distances, exact and relaxed searches, both builds, both versions of Field2D", "why_tests_cant": "a search judges whole cells by their corners and loops over a window of cells that is cut or wrapped round at the border; a test tries a few distances in a few fields, not all pairs", "anchors": ["src/engine/fields/field_2d.rs:65-160, 386-517 (get_neighbors_within_distance, get_neighbors_within_relax_distance)", "src/engine/fields/field_2d.rs:926-1002 (t_transform, check_circle, distance)"]}
{"id": "C268", "title": "Parts of a hypernetwork without hyperedges between them do not influence each other", "statement": "If no hyperedge is ever made between the nodes of one part of a hypernetwork and the other nodes, then the part shows, after any calls, what it shows if only the calls about it are made: the same nodes, the same hyperedges in the same order and the same objects. The calls panic together exactly if the calls about one of the two parts panic alone.", "quantifier": "all partitions of the nodes and all histories of calls without a hyperedge between the parts", "why_tests_cant": "ids are handed out across the whole hypernetwork, so what one part does can show up in another part only after particular histories of both", "anchors": ["src/engine/fields/hnetwork.rs: add_node, add_edge, remove_edge, remove_all_edges, update_node, update, lazy_update, get_edges, get_object, get_id"]}
{"id": "C269", "title": "Taking back a call leaves everything as it was", "statement": "An agent that is scheduled and dequeued, an object that is placed and removed, an edge or a hyperedge that is added and removed leaves the schedule, the grid or field, the network or the hypernetwork exactly as it was before, for every later call.", "quantifier": "all states, objects, agents, locations, edges and hyperedges", "why_tests_cant": "what is left behind (a count, an empty list, an entry for other processes) depends on the state before and may show only many calls later", "anchors": ["src/engine/schedule.rs: schedule_repeating, distributed_schedule_repeating, dequeue", "src/engine/fields/dense_object_grid_2d.rs: set_object_location, remove_object_location", "src/engine/fields/sparse_object_grid_2d.rs: set_object_location, remove_object_location", "src/engine/fields/field_2d.rs: set_object_location, remove_object_location", "src/engine/fields/kdtree_mpi.rs: insert, remove_object_location", "src/engine/fields/network.rs: add_edge, remove_edge", "src/engine/fields/hnetwork.rs: add_edge, remove_edge"]}
{"id": "C270", "title": "In an undirected network it does not matter which end of an edge is named first", "statement": "Two programs on an undirected network that differ only in the order in which add_edge and remove_edge name the two ends of an edge leave networks that answer every later question alike; add_edge answers alike, and remove_edge gives back the same edge seen from the end named first. This holds with and without the feature parallel.", "quantifier": "all programs, objects, labels and weights, hash functions and numbers of processors", "why_tests_cant": "both ends keep a list of their own and the two are treated by different code; which programs bring them apart depends on the whole history", "anchors": ["src/engine/fields/network.rs: add_edge, remove_edge"]}
{"id": "C271", "title": "Only the order of fitnesses and costs decides what a search finds", "statement": "If all fitnesses (and the desired one), or all costs (and the target), are changed by a function that keeps comparisons, every search goes through the same individuals or samples and reports the same one, with the changed value; a search may therefore be run with fitnesses in any unit.", "quantifier": "all fitness and cost functions, order preserving changes of them, populations, numbers of generations, processes and cloud functions; of the genetic searches those whose selection depends on the order only", "why_tests_cant": "it relates two whole searches, and fails only where a value meets a constant in the code", "anchors": ["src/explore/genetic.rs: explore_ga_sequential!, explore_ga_parallel!", "src/explore/mpi/genetic.rs: explore_ga_distributed_mpi!", "src/explore/aws/genetic.rs: explore_ga_aws!", "src/explore/random_search.rs: random_search!", "src/explore/bayesian.rs: bayesian_search!"]}
{"id": "C272", "title": "Making a call a second time changes nothing", "statement": "A call that writes, places, adds, removes or publishes may be made twice in a row: once it was made, making it again succeeds and leaves everything as it is, so that an agent need not know whether another agent has made the call already.", "quantifier": "all calls, arguments and states of the grids, the continuous field, the map of two sides, the schedule and the networks", "why_tests_cant": "a test repeats one call in one state; which calls may be repeated depends on every state they can be made in", "anchors": ["src/engine/fields/dense_number_grid_2d.rs: set_value_location, remove_value_location, update", "src/engine/fields/sparse_number_grid_2d.rs: set_value_location, remove_value_location, lazy_update", "src/engine/fields/dense_object_grid_2d.rs: set_object_location, remove_object_location", "src/engine/fields/sparse_object_grid_2d.rs: set_object_location, remove_object_location", "src/engine/fields/field_2d.rs: set_object_location, remove_object_location", "src/utils/dbdashmap.rs: insert, remove, clear", "src/engine/schedule.rs: dequeue", "src/engine/fields/network.rs: update, remove_node, update_node", "src/engine/fields/hnetwork.rs: add_edge, remove_edge, remove_object, update"]}
{"id": "C273", "title": "Influence travels at most as far as agents look and move", "statement": "If agents look at most R around themselves and move at most s in a step, then what happens within a distance r of a place during n steps depends only on the agents that were within r + n (s + R) of it at the beginning: a simulation with other agents further away, or without them, goes on alike there, in whatever order the agents of a step are served and on however many threads.", "quantifier": "all rules of agents without randomness, all sizes, places, distances, populations, numbers of steps, ways to break ties, numbers of threads and interleavings, on object grids and in continuous fields", "why_tests_cant": "a test runs two populations that differ far away for some steps; that nothing travels faster is a statement about all populations, rules and numbers of steps", "anchors": ["src/engine/fields/field_2d.rs: get_neighbors_within_distance, set_object_location, lazy_update", "src/engine/fields/dense_object_grid_2d.rs: get_objects, lazy_update", "src/engine/fields/sparse_object_grid_2d.rs: get_objects, lazy_update", "src/engine/fields/grid_2d.rs", "src/engine/schedule.rs: step"]}
{"id": "C274", "title": "Influence on a network passes at most one edge per step", "statement": "If agents are the nodes of a network and look at the nodes they are joined to, then what a node is after n steps depends only on the nodes up to n edges away and on the edges at the nodes less than n edges away: in a network with other nodes or edges further away, or without them, the node has the same record and is scheduled alike after n steps. The same holds of a hypernetwork with hyperedges instead of edges.", "quantifier": "all rules of agents without randomness, all networks and hypernetworks, nodes, numbers of steps, ways to break ties, numbers of threads and interleavings", "why_tests_cant": "a test follows one change through one network; that nothing travels faster is a statement about all networks, rules and numbers of steps", "anchors": ["src/engine/fields/network.rs: get_edges, get_object, update_node, update", "src/engine/fields/hnetwork.rs: get_edges, get_object, update_node, update", "src/engine/schedule.rs: step"]}
{"id": "C275", "title": "A turned, mirrored or shifted world goes through the turned, mirrored or shifted steps", "statement": "If a world is turned, mirrored, shifted or measured in another unit of length, and its agents look at the moved places and follow the moved rule, then after any number of steps the simulation is the moved simulation: no direction and no place is preferred by the engine.", "quantifier": "all ways to move the cells of a grid without bringing two together, exchanges of the axes and units of length of a field, all rules of agents without randomness that fit, all sizes, populations, numbers of steps, ways to break ties, numbers of threads and interleavings", "why_tests_cant": "a test runs one world and one moved world; that the engine prefers no direction is a statement about all worlds, rules and ways to move them", "anchors": ["src/engine/fields/field_2d.rs: get_neighbors_within_distance, set_object_location, lazy_update", "src/engine/fields/dense_object_grid_2d.rs: get_objects, lazy_update", "src/engine/fields/sparse_object_grid_2d.rs: get_objects, lazy_update", "src/engine/fields/grid_2d.rs", "src/engine/schedule.rs: step"]}
{"id": "C276", "title": "The order in which the nodes and edges of a network are added does not matter", "statement": "Two networks with the same nodes and edges, added in different orders and under different names, go through the same simulation: after any number of steps the same agents are scheduled for the same times, and each node has the same record in both, for every rule that does not look at the order of its neighbours. The same holds of hypernetworks with the members of each hyperedge in any order.", "quantifier": "all networks and hypernetworks, renumberings, names, rules without randomness that do not look at the order, numbers of steps, ways to break ties, numbers of threads, hash functions and interleavings", "why_tests_cant": "a test builds one network in two orders; that no order matters is a statement about all networks, orders, rules and numbers of steps", "anchors": ["src/engine/fields/network.rs: add_node, add_edge, update, get_edges", "src/engine/fields/hnetwork.rs: add_node, add_edge, update, get_edges", "src/engine/schedule.rs: step"]}
{"id": "C277", "title": "Away from the border neither the size of a field nor whether it is a torus matters", "statement": "As long as agents, and the circles in which they look, lie inside a continuous field without touching its border, the searches give the same answers in the same order in any other field with squares of the same size that contains the circles, whether either of them is a torus or not; so a simulation goes through the same steps in both. The same holds of object grids of different sizes as long as agents and the cells they look at lie inside both.", "quantifier": "all sizes of fields and grids, torus or not, sizes of squares, calls, positions, distances, rules without randomness that stay away from the border and do not look at the order, numbers of steps, ways to break ties, numbers of threads, hash functions and interleavings", "why_tests_cant": "a test compares two fields at some positions; that the border is never noticed from inside is a statement about all sizes, positions, distances and numbers of steps", "anchors": ["src/engine/fields/field_2d.rs:386-440: get_neighbors_within_distance", "src/engine/fields/field_2d.rs:472-517: get_neighbors_within_relax_distance", "src/engine/fields/field_2d.rs:934-1017: check_circle, distance, toroidal_distance", "src/engine/fields/dense_object_grid_2d.rs", "src/engine/fields/sparse_object_grid_2d.rs"]}
{"id": "C278", "title": "An exploration may be split into several", "statement": "An exploration of the parameters of a model gives the outcomes that two explorations of its parts give together: with the values of one parameter divided between them, with matched lists cut at the same place, or with the repetitions divided. Listing the values in another order gives the same outcomes in another order.", "quantifier": "all numbers of parameters, lists of values, ways to divide or reorder them, numbers of repetitions, models and modes", "why_tests_cant": "a test divides some exploration in some way; that no outcome is lost or gained is a statement about all lists, divisions and models", "anchors": ["src/explore/model_exploration.rs:233-306: explore_sequential!", "src/explore/model_exploration.rs:355-424: explore_parallel!", "src/explore/mpi/model_exploration.rs:121-289: explore_distributed_mpi!", "src/lib.rs:1719-1744: build_configurations!"]}
{"id": "C279", "title": "Two models on one schedule do not disturb each other", "statement": "If the agents of two models with states of their own are put on one schedule, then after any number of steps each model has the state, the pending agents and the step counter that it has on a schedule of its own.", "quantifier": "all pairs of models, hooks that do not look at the schedule, plans of agents, numbers of steps and ways of the priority queue to resolve ties", "why_tests_cant": "a test runs two models together for some steps; the ids of the agents, the shape of the heap and the times to which the steps go differ from those of the models alone", "anchors": ["src/engine/schedule.rs:283-413 (schedule_once, schedule_repeating, step)", "src/engine/agent.rs (Agent)", "src/engine/state.rs (State)"]}
{"id": "C280", "title": "A longer run begins like a shorter one", "statement": "A simulation or search that is allowed more steps, generations or iterations goes through those of the one that is allowed fewer first, and a longer search does not return anything worse.", "quantifier": "all models, end conditions, searches, callbacks, limits and seeds, where the random numbers are the same in both runs", "why_tests_cant": "a test compares two limits for some models; that the limit is looked at nowhere else is a statement about all runs", "anchors": ["src/lib.rs:1148-1168 (simulate!)", "src/lib.rs:1934-1965 (check_reproducibility!)", "src/explore/genetic.rs:426-549, 672-827", "src/explore/mpi/genetic.rs:209-591", "src/explore/aws/genetic.rs:354-562", "src/explore/random_search.rs:64-113", "src/explore/bayesian.rs:140-167, 206-235"]}
{"id": "C281", "title": "A parameter with one value may be fixed in the model, and the parameters may be listed in another order", "statement": "An exploration in which one parameter has a single value (with matched lists: the same value throughout) has the rows of the exploration of the other parameters by the model that has this parameter fixed, with the same numbers and in the same order. Listing two neighbouring parameters in the other order gives the same outcomes: in another order if all combinations are explored, as the same rows if the lists are matched.", "quantifier": "all numbers of parameters and places among them, non-empty lists of values (of one length if matched), models, repetitions and numbers of processes, for explore_sequential!, explore_parallel! and explore_distributed_mpi!", "why_tests_cant": "a test fixes or exchanges some parameters of some model; that the place of a parameter has no influence on the others is a statement about all of them", "anchors": ["src/explore/model_exploration.rs:233-306: explore_sequential!", "src/explore/model_exploration.rs:355-424: explore_parallel!", "src/explore/mpi/model_exploration.rs:121-289: explore_distributed_mpi!", "src/lib.rs:1719-1744: build_configurations!"]}
{"id": "C282", "title": "An exploration of more configurations has the outcomes of an exploration of fewer", "statement": "Exploring more values of the parameters gives every outcome that exploring fewer of them gives, at least as often. The exhaustive exploration of lists gives every outcome of the matched exploration of the same lists, at least as often, and in general more.", "quantifier": "all numbers of parameters, non-empty lists of values (of one length if matched), models, numbers of repetitions and numbers of processes, for explore_sequential!, explore_parallel! and explore_distributed_mpi!", "why_tests_cant": "a test compares some explorations; that no configuration of the smaller one is missing from the larger one is a statement about all lists", "anchors": ["src/explore/model_exploration.rs:233-306: explore_sequential!", "src/explore/model_exploration.rs:355-424: explore_parallel!", "src/explore/mpi/model_exploration.rs:121-289: explore_distributed_mpi!", "src/lib.rs:1719-1744: build_configurations!"]}
{"id": "C283", "title": "What is scheduled for later does not influence the steps before", "statement": "Agents scheduled for later have no influence on the steps before their time, whatever they will do then: state, clock, step counter and the other pending agents are those of the simulation without them.", "quantifier": "all simulations, late agents, times, orderings and numbers of steps in which another agent is due before each of the late ones", "why_tests_cant": "a test adds some late agent to some simulation; that nothing of it is used before its time is a statement about all of them", "anchors": ["src/engine/schedule.rs:283-303 (schedule_once, schedule_repeating)", "src/engine/schedule.rs:347-413 (step)", "src/engine/priority.rs:22-38 (Ord for Priority)"]}
{"id": "C284", "title": "The order of agents whose actions may be exchanged does not matter", "statement": "If the turns of any two agents may be exchanged (the state afterwards is the same, and neither notices whether the other had its turn before), then after any number of steps the state, the clock, the step counter and the pending agents with their times do not depend on the orderings of the agents, on the order in which they were put on the schedule or on how the heap decides ties. Under the feature parallel, if all pending agents are due at the same time, they do not depend on the number of workers or their interleaving either, and are those of the sequential run.", "quantifier": "all models whose agents may be exchanged and whose hooks do not look at the schedule, all agents, times, orderings, heaps, numbers of steps, numbers of workers and interleavings", "why_tests_cant": "a test compares some orders of some agents; that no order makes a difference is a statement about all orders, heaps and interleavings", "anchors": ["src/engine/schedule.rs:347-413 (step)", "src/engine/schedule.rs:127-221 (step under parallel)", "src/engine/schedule.rs:283-313", "src/engine/priority.rs:22-38"]}
