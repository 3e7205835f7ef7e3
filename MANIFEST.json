{
 "claims": [
  {
   "property": "C01",
   "status": "proved",
   "theorems": [
    "Verif.Schedule.C01_step_runs_exactly_the_due_agents"
   ],
   "note": "Full statement, for every reachable world, user code and heap tie-breaking."
  },
  {
   "property": "C02",
   "status": "proved",
   "theorems": [
    "Verif.Schedule.C02_step_runs_in_ordering_order"
   ],
   "note": "Full statement."
  },
  {
   "property": "C03",
   "status": "proved",
   "theorems": [
    "Verif.Schedule.C03_pending_after_step",
    "Verif.Schedule.C03_pending_after_step_entries"
   ],
   "note": "Full statement, as a list of turns and entry by entry."
  },
  {
   "property": "C04",
   "status": "proved",
   "theorems": [
    "Verif.Schedule.C04_clock_is_batch_time",
    "Verif.Schedule.C04_clock_never_decreases"
   ],
   "note": "Clock equals the batch time; monotone along any history that does not schedule into the past."
  },
  {
   "property": "C05",
   "status": "proved",
   "theorems": [
    "Verif.Schedule.C05_repeating_agent_runs_every_unit"
   ],
   "note": "Exact list of runs of a never-stopping repeating agent after any number of steps; requires that +1 is strict (see C12 for where single precision breaks this)."
  },
  {
   "property": "C06",
   "status": "proved",
   "theorems": [
    "Verif.Schedule.C06_step_counter_and_hooks",
    "Verif.Schedule.C06_order_within_step"
   ],
   "note": "Step counter, hook sequence over any history, order inside one step."
  },
  {
   "property": "C07",
   "status": "proved",
   "theorems": [
    "Verif.Schedule.C07_empty_step"
   ],
   "note": "Full statement (sequential variant; the parallel variant ends the process, see C14)."
  },
  {
   "property": "C08",
   "status": "proved",
   "theorems": [
    "Verif.Schedule.C08_ids_are_consecutive",
    "Verif.Schedule.C08_registration_succeeds"
   ],
   "note": "Ids are 0,1,2,... unconditionally; success under the stated condition on schedule_once ids."
  },
  {
   "property": "C09",
   "status": "proved",
   "theorems": [
    "Verif.Schedule.C09_dequeue_exact",
    "Verif.Schedule.C09_dequeued_agent_never_runs"
   ],
   "note": "Exactness and non-execution in later steps."
  },
  {
   "property": "C10",
   "status": "partial",
   "theorems": [
    "Verif.Schedule.C10_schedule_once_fresh_partial",
    "Verif.Schedule.C10_schedule_once_pending_partial",
    "Verif.Schedule.C10_schedule_once_may_drop_the_agent_partial"
   ],
   "note": "False of the code: an id that is already pending keeps the old agent and only moves it. Negation with witness proved; exact behaviour proved for fresh and for pending ids."
  },
  {
   "property": "C11",
   "status": "proved",
   "theorems": [
    "Verif.Schedule.C11_run_independent_of_tie_breaking",
    "Verif.Schedule.C11_batch_independent_of_tie_breaking"
   ],
   "note": "Full run equality under distinct priorities; batch equality as a multiset always."
  },
  {
   "property": "C12",
   "status": "partial",
   "theorems": [
    "Verif.F32.C12_time_advances_below_2_24_partial",
    "Verif.F32.C12_integer_times_advance_exactly_partial",
    "Verif.F32.C12_time_stalls_partial",
    "Verif.F32.C12_all_large_times_stall_partial",
    "Verif.Schedule.C12_stalled_agent_starves_later_agents_partial",
    "Verif.MachineSchedule.C12_advances_iff_partial"
   ],
   "note": "False of the code at 2^24 time units (single precision). Proved: strict below 2^24, stall at 2^24, all times from 2^25 on stall, and a stalled agent starves later agents. C12_advances_iff_partial, on machine floats: exactly where times of either sign advance."
  },
  {
   "property": "C13",
   "status": "proved",
   "theorems": [
    "Verif.Schedule.C13_batches_partition",
    "Verif.Schedule.C13_each_event_once",
    "Verif.Schedule.C13_interleaving_independent"
   ],
   "note": "Batches partition the events; each event once under every interleaving; interleaving-independent reschedule for independent agents. For every world reached by calls and parallel steps."
  },
  {
   "property": "C14",
   "status": "partial",
   "theorems": [
    "Verif.Schedule.C14_parallel_runs_agents_not_due_partial",
    "Verif.Schedule.C14_parallel_runs_due_agents_partial",
    "Verif.Schedule.C14_parallel_no_threads_partial"
   ],
   "note": "False of the code: the parallel step pops every event regardless of its time. Negation proved; agreement proved when all pending agents have the same time; thread count 0 panics. For every world reached by calls and parallel steps."
  },
  {
   "property": "C15",
   "status": "proved",
   "theorems": [
    "Verif.DBDashMap.C15_sharded_map_is_a_pair_of_plain_maps",
    "Verif.DBDashMap.C15_independent_of_hash_and_shards"
   ],
   "note": "Full statement over every call of the map (also merge, apply_*), any hash function and CPU count; independence corollary excludes apply_to_all_keys, whose result depends on the visiting order. insert's return value is treated in C19."
  },
  {
   "property": "C16",
   "status": "proved",
   "theorems": [
    "Verif.DBDashMap.C16_shard_index_in_bounds",
    "Verif.DBDashMap.C16_no_call_panics"
   ],
   "note": "Full statement on a 64-bit machine."
  },
  {
   "property": "C17",
   "status": "proved",
   "theorems": [
    "Verif.DBDashMap.C17_lazy_update_publishes_and_clears",
    "Verif.DBDashMap.C17_reads_stable_between_updates"
   ],
   "note": "Full statement."
  },
  {
   "property": "C18",
   "status": "partial",
   "theorems": [
    "Verif.DBDashMap.C18_update_partial",
    "Verif.DBDashMap.C18_update_keeps_removed_keys_partial"
   ],
   "note": "False of the code: update never deletes from the read side. Negation with witness; exact effect of update proved."
  },
  {
   "property": "C19",
   "status": "partial",
   "theorems": [
    "Verif.DBDashMap.C19_insert_partial",
    "Verif.DBDashMap.C19_insert_never_returns_the_old_value_partial"
   ],
   "note": "False of the code: insert removes the key first and always returns None. Negation with witness; the effect of insert proved."
  },
  {
   "property": "C20",
   "status": "proved",
   "theorems": [
    "Verif.DenseNumber.C20_dense_number_grid_is_double_buffered",
    "Verif.DenseNumber.C20_update_is_lazy_update"
   ],
   "note": "Full statement, in terms of what was written last; update and lazy_update are the same function."
  },
  {
   "property": "C21",
   "status": "partial",
   "theorems": [
    "Verif.DenseNumber.C21_no_aliasing_in_range_partial",
    "Verif.DenseNumber.C21_rejected_locations_partial",
    "Verif.DenseNumber.C21_out_of_range_aliases_partial",
    "Verif.DenseNumber.C21_alias_witness_partial"
   ],
   "note": "False of the code: an index outside the grid but inside the vector is accepted and aliases another cell. Proved: no aliasing in range, exact set of rejected locations, witness."
  },
  {
   "property": "C22",
   "status": "proved",
   "theorems": [
    "Verif.DenseNumber.C22_get_location_of_nan",
    "Verif.DenseNumber.C22_get_location",
    "Verif.DenseNumber.C22_get_empty_bags",
    "Verif.DenseNumber.C22_iter_values"
   ],
   "note": "Full statement for both buffers (emptiness is a query on the published buffer only)."
  },
  {
   "property": "C23",
   "status": "proved",
   "theorems": [
    "Verif.DenseNumber.C23_apply_read",
    "Verif.DenseNumber.C23_apply_write",
    "Verif.DenseNumber.C23_apply_readwrite",
    "Verif.DenseNumber.C23_apply_keeps_shape"
   ],
   "note": "Full statement, cell by cell."
  },
  {
   "property": "C24",
   "status": "partial",
   "theorems": [
    "Verif.C24_dense_number_random_empty_bag_partial",
    "Verif.C24_dense_object_random_empty_bag_partial",
    "Verif.C24_dense_number_every_empty_cell_possible_partial",
    "Verif.C24_sparse_number_random_empty_bag_partial",
    "Verif.C24_sparse_object_random_empty_bag_partial",
    "Verif.C24_sparse_full_grid_never_returns_partial",
    "Verif.C24_sparse_empty_grid_panics_partial"
   ],
   "note": "False of the sparse grids: rejection sampling never returns on a full grid, for any draws, and panics on an empty one. Proved: full statement for both dense grids; on sparse grids any returned cell is in range and empty and the search ends as soon as an empty cell is drawn."
  },
  {
   "property": "C25",
   "status": "proved",
   "theorems": [
    "Verif.SparseNumber.C25_sparse_number_grid_is_double_buffered",
    "Verif.SparseNumber.C25_update_is_lazy_update"
   ],
   "note": "Full statement; locations are not range checked."
  },
  {
   "property": "C26",
   "status": "proved",
   "theorems": [
    "Verif.SparseNumber.C26_get_location_of_nan",
    "Verif.SparseNumber.C26_get_location",
    "Verif.SparseNumber.C26_get_empty_bags",
    "Verif.SparseNumber.C26_iter_values"
   ],
   "note": "Full statement, every iteration order."
  },
  {
   "property": "C27",
   "status": "partial",
   "theorems": [
    "Verif.SparseNumber.C27_dense_and_sparse_agree_partial",
    "Verif.SparseNumber.C27_readwrite_agrees_partial",
    "Verif.SparseNumber.C27_write_differs_partial",
    "Verif.SparseNumber.C27_readwrite_differs_partial",
    "Verif.SparseNumber.C27_not_interchangeable_partial"
   ],
   "note": "False of the code for apply_to_all_values with WRITE and READWRITE. Witnesses proved; agreement proved for all other calls, and for READWRITE when every written cell is also published."
  },
  {
   "property": "C28",
   "status": "proved",
   "theorems": [
    "Verif.DenseObject.C28_dense_object_grid_is_double_buffered",
    "Verif.DenseObject.C28_no_object_twice_in_a_bag"
   ],
   "note": "Full statement for histories without update (see C30) and apply_to_all_values (C32)."
  },
  {
   "property": "C29",
   "status": "proved",
   "theorems": [
    "Verif.DenseObject.C29_get_location",
    "Verif.DenseObject.C29_get_empty_bags",
    "Verif.DenseObject.C29_iter_objects"
   ],
   "note": "Full statement for both buffers, also on the storage left by update."
  },
  {
   "property": "C30",
   "status": "partial",
   "theorems": [
    "Verif.DenseObject.C30_update_publishes_partial",
    "Verif.DenseObject.C30_storage_grows_partial",
    "Verif.DenseObject.C30_apply_panics_after_update_partial",
    "Verif.DenseObject.C30_update_is_not_lazy_update_partial",
    "Verif.DenseObject.C30_storage_not_kept_partial"
   ],
   "note": "False of the code: update inserts a new bag per cell instead of replacing, keeps the write buffer, and makes apply_to_all_values panic. Proved: reads right after any number of updates are what was written; growth n+1 bags per cell; panic; witnesses."
  },
  {
   "property": "C31",
   "status": "partial",
   "theorems": [
    "Verif.DenseObject.C31_dense_told_iff_partial",
    "Verif.DenseObject.C31_dense_square_transposes_partial",
    "Verif.DenseObject.C31_dense_wrong_location_partial",
    "Verif.DenseObject.C31_dense_not_own_location_partial",
    "Verif.SparseObject.C31_sparse_own_location_partial"
   ],
   "note": "False of DenseGrid2D: the location is computed row-major from a column-major index; right iff one dimension is 1, transposed on squares. Proved for SparseGrid2D."
  },
  {
   "property": "C32",
   "status": "partial",
   "theorems": [
    "Verif.DenseObject.C32_dense_read_partial",
    "Verif.DenseObject.C32_dense_write_partial",
    "Verif.DenseObject.C32_dense_readwrite_partial",
    "Verif.DenseObject.C32_dense_none_is_ignored_partial",
    "Verif.DenseObject.C32_dense_write_keeps_partial",
    "Verif.SparseObject.C32_sparse_none_panics_partial",
    "Verif.SparseObject.C32_sparse_readwrite_partial",
    "Verif.SparseObject.C32_sparse_readwrite_loses_partial",
    "Verif.SparseObject.C32_sparse_none_panic_witness_partial"
   ],
   "note": "False of the code: DenseGrid2D READWRITE keeps the object on None, WRITE does not remove it from the write bag, SparseGrid2D panics on None and READWRITE keeps only the last object of a bag. Exact effect of each option proved."
  },
  {
   "property": "C33",
   "status": "proved",
   "theorems": [
    "Verif.SparseObject.C33_sparse_object_grid_is_double_buffered"
   ],
   "note": "Full statement; no stored bag is empty."
  },
  {
   "property": "C34",
   "status": "proved",
   "theorems": [
    "Verif.SparseObject.C34_get_location",
    "Verif.SparseObject.C34_get_empty_bags",
    "Verif.SparseObject.C34_iter_objects"
   ],
   "note": "Full statement, every iteration order, both buffers."
  },
  {
   "property": "C35",
   "status": "proved",
   "theorems": [
    "Verif.Field2D.C35_field_history"
   ],
   "note": "Full statement over all histories; positions are exact rationals."
  },
  {
   "property": "C36",
   "status": "proved",
   "theorems": [
    "Verif.Field2D.C36_index_in_storage",
    "Verif.Field2D.C36_same_storage_iff_same_square"
   ],
   "note": "Full statement, positions on the upper borders included."
  },
  {
   "property": "C37",
   "status": "partial",
   "theorems": [
    "Verif.Field2D.C37_neighbors_sound_partial",
    "Verif.Field2D.C37_neighbors_published_partial",
    "Verif.Field2D.C37_large_distance_negation_partial",
    "Verif.Field2D.C37_within_a_cell_partial"
   ],
   "note": "False on a torus for large distances: a cell whose corners are all within the distance is taken whole although it holds farther points. Witness proved. Proved in full off the torus, and on it for 2 dist < size - d; for every distance, on a torus too, what is returned lies within dist + 3d/4 (C37_within_a_cell_partial); objects are assumed placed at the location they carry."
  },
  {
   "property": "C38",
   "status": "partial",
   "theorems": [
    "Verif.Field2D.C38_neighbors_complete_partial",
    "Verif.Field2D.C38_guaranteed_radius_partial",
    "Verif.Field2D.C38_rounded_radius_negation_partial",
    "Verif.Field2D.C38_circle_in_cell_negation_partial",
    "Verif.Field2D.C38_no_wraparound_negation_partial",
    "Verif.Field2D.C38_upper_border_negation_partial"
   ],
   "note": "False of the code in four ways, each with a proved witness: search radius rounded down, circle inside one cell, no wrap-around on a torus (the clamping is applied to tori and the wrapping to plain fields), objects on the upper border. Proved: exact sufficient condition and a guaranteed radius dist - 3d/2."
  },
  {
   "property": "C39",
   "status": "partial",
   "theorems": [
    "Verif.Field2D.C39_neighbors_once_partial",
    "Verif.Field2D.C39_wrapped_search_negation_partial",
    "Verif.Field2D.C39_twice_partial",
    "Verif.Field2D.C39_itself_twice_partial"
   ],
   "note": "False off the torus when the searched square is larger than the field: then the relaxed search around any position inside returns some object twice (C39_twice_partial), and from the distance that spans the field on an object finds itself twice with the exact search too (C39_itself_twice_partial); concrete witness in C39_wrapped_search_negation_partial. Proved on a torus for every distance, and otherwise when it fits (C39_neighbors_once_partial): for the relaxed search every case is settled."
  },
  {
   "property": "C40",
   "status": "proved",
   "theorems": [
    "Verif.Field2D.C40_relaxed_contains_exact",
    "Verif.Field2D.C40_no_panic"
   ],
   "note": "Full statement for every state, and no panic on reachable fields."
  },
  {
   "property": "C41",
   "status": "proved",
   "theorems": [
    "Verif.Torus.C41_toroidal_transform",
    "Verif.Torus.C41_toroidal_distance",
    "Verif.Torus.C41_toroidal_distance_minimal",
    "Verif.Torus.C41_toroidal_distance_antisymmetric",
    "Verif.Torus.C41_toroidal_distance_shift"
   ],
   "note": "Full statement, with uniqueness and minimality; antisymmetry holds also at the tie."
  },
  {
   "property": "C42",
   "status": "partial",
   "theorems": [
    "Verif.Torus.C42_t_transform_exact_partial",
    "Verif.Torus.C42_negative_multiple_negation_partial"
   ],
   "note": "False of the code: negative multiples of size give size. Witness proved; exact result proved for every n."
  },
  {
   "property": "C43",
   "status": "proved",
   "theorems": [
    "Verif.Field2D.C43_count_before_first_update",
    "Verif.Field2D.C43_density_fixed",
    "Verif.Field2D.C43_get_empty_bags",
    "Verif.Field2D.C43_num_objects"
   ],
   "note": "Full statement."
  },
  {
   "property": "C44",
   "status": "proved",
   "theorems": [
    "Verif.Network.C44_reads_isolated",
    "Verif.Network.C44_nothing_before_publication",
    "Verif.Network.C44_publication"
   ],
   "note": "Full statement for the sequential Network: queries after a publication, before the first one, and what a publication shows."
  },
  {
   "property": "C45",
   "status": "partial",
   "theorems": [
    "Verif.Network.C45_asymmetry_partial",
    "Verif.Network.C45_asymmetry_remove_node_partial",
    "Verif.Network.C45_symmetric_without_remove_node_partial",
    "Verif.Network.C45_symmetric_partial",
    "Verif.Network.C45_remove_edge_exactly_partial"
   ],
   "note": "False of the code for parallel edges (remove_edge takes one entry from u's list and all from v's) and for remove_node with unpublished neighbours: witnesses; C45_remove_edge_exactly_partial: remove_edge keeps the symmetry exactly if there is at most one edge. Proved for histories whose remove_edge calls meet at most one edge between the nodes; with remove_node when it can see all edges."
  },
  {
   "property": "C46",
   "status": "partial",
   "theorems": [
    "Verif.HNetwork.C46_hnetwork_same_id_partial",
    "Verif.HNetwork.C46_hnetwork_ids_unique_partial",
    "Verif.Network.C46_same_id_after_removal_partial",
    "Verif.Network.C46_same_id_after_adding_twice_partial",
    "Verif.Network.C46_add_node_exactly_partial",
    "Verif.Network.C46_ids_unique_partial",
    "Verif.Network.C46_ids_unique_careful_partial"
   ],
   "note": "False: ids are the current number of nodes, so an add after a removal, or adding a node twice, makes two nodes share an id (witnesses). Exact: an add keeps unique ids unique iff the node is absent and its id free, or it has that id already (C46_add_node_exactly_partial). Proved, with contiguity, when nodes are only added, once each; and for removals if each add finds its id free. HNetwork: same failure (witness) and same restricted proof."
  },
  {
   "property": "C47",
   "status": "proved",
   "theorems": [
    "Verif.Network.C47_absent",
    "Verif.Network.C47_add_edge",
    "Verif.Network.C47_seen"
   ],
   "note": "Full statement, on the adjacency lists and as get_edges shows it."
  },
  {
   "property": "C48",
   "status": "partial",
   "theorems": [
    "Verif.Network.C48_dangling_edge_partial",
    "Verif.Network.C48_edges_known_partial",
    "Verif.Network.C48_remove_node_exactly_partial"
   ],
   "note": "False: directed, two parallel edges k->u, remove_node(u) leaves a dangling edge and get_edge panics (witness). Proved for histories that remove nodes when all edges can be found; C48_remove_node_exactly_partial: this condition is exactly when remove_node keeps the edges in order, directed and undirected."
  },
  {
   "property": "C49",
   "status": "partial",
   "theorems": [
    "Verif.Network.C49_directed_partial",
    "Verif.Network.C49_undirected_partial",
    "Verif.Network.C49_no_edge_partial",
    "Verif.Network.C49_exceptions_partial",
    "Verif.Network.C49_undirected_parallel_partial"
   ],
   "note": "Exact effect proved for directed and undirected networks with any number of parallel edges, and when there is none (in undirected ones exactly one edge goes if and only if there is exactly one); false for undirected parallel edges, unpublished nodes, after remove_all_edges and after remove_node in the same step (witnesses)."
  },
  {
   "property": "C50",
   "status": "partial",
   "theorems": [
    "Verif.Network.C50_remove_node_partial",
    "Verif.Network.C50_absent_partial",
    "Verif.Network.C50_exceptions_partial"
   ],
   "note": "Exact effect proved when nodes are published, have lists and all edges can be found; four exceptions with witnesses (dangling edge, unpublished node ignored, two panics)."
  },
  {
   "property": "C51",
   "status": "proved",
   "theorems": [
    "Verif.Network.C51_graph",
    "Verif.Network.C51_simple_connected",
    "Verif.Network.C51_short_node_set"
   ],
   "note": "Full statement for every choice function that returns distinct positions when weights are positive, which is also shown to be the case; the weights themselves (degrees) influence only which positions. Hypothesis: the node set lists the nodes of the network, whose ids are distinct."
  },
  {
   "property": "C52",
   "status": "partial",
   "theorems": [
    "Verif.Network.C52_no_edges_partial",
    "Verif.Network.C52_get_edges_none_partial",
    "Verif.Network.C52_panics_partial"
   ],
   "note": "False: get_edges answers None for every node and remove_edge, remove_node, remove_incoming/outgoing_edges panic. What holds: no edges, get_edge finds none, ids and objects unchanged, add_edge works."
  },
  {
   "property": "C53",
   "status": "partial",
   "theorems": [
    "Verif.HNetwork.C53_members_partial",
    "Verif.HNetwork.C53_incomplete_partial",
    "Verif.HNetwork.C53_complete_partial"
   ],
   "note": "Membership half proved for every history. The other half is false: add_edge stops at the first id that already lists the hyperedge, so a repeated node in the slice leaves members without it (witness). Proved for histories without repeated nodes whose slices have distinct ids."
  },
  {
   "property": "C54",
   "status": "proved",
   "theorems": [
    "Verif.HNetwork.C54_no_repeats"
   ],
   "note": "Full statement, written and published lists."
  },
  {
   "property": "C55",
   "status": "partial",
   "theorems": [
    "Verif.HNetwork.C55_false_but_added_partial",
    "Verif.HNetwork.C55_absent_partial",
    "Verif.HNetwork.C55_add_edge_partial",
    "Verif.HNetwork.C55_any_slice_partial",
    "Verif.HNetwork.C55_repeated_partial"
   ],
   "note": "False for slices with a repeated node: the answer is false although the hyperedge was (partly) added (witness). In general the answer is false for every slice with a repeated node. Exact effect and answer proved for every slice in every network (the ids up to the first repeated or already listing one get the hyperedge); simpler form for slices with distinct ids in a network with complete lists; absent nodes and the empty slice proved."
  },
  {
   "property": "C56",
   "status": "partial",
   "theorems": [
    "Verif.HNetwork.C56_exceptions_partial",
    "Verif.HNetwork.C56_remove_object_partial",
    "Verif.HNetwork.C56_absent_partial"
   ],
   "note": "False: hyperedges added since the last update survive, remove_object panics after remove_all_edges, and an add_node after it reuses an id in use (witnesses). Exact effect proved when the published list of the node is the current one and its members have lists."
  },
  {
   "property": "C57",
   "status": "proved",
   "theorems": [
    "Verif.KdTree.C57_tiles",
    "Verif.KdTree.C57_location",
    "Verif.KdTree.C57_single"
   ],
   "note": "Full statement, exact rationals for f32, positive field sizes."
  },
  {
   "property": "C58",
   "status": "partial",
   "theorems": [
    "Verif.KdTree.C58_one_border_partial",
    "Verif.KdTree.C58_exactly_partial",
    "Verif.KdTree.C58_corner_negation_partial"
   ],
   "note": "False for corners: an agent there is offered to the first of its borders only (witness; C58_exactly_partial: all borders get it exactly if there is at most one within the distance). Proved: the exact content of each list after any sequence of inserts in the own box."
  },
  {
   "property": "C59",
   "status": "partial",
   "theorems": [
    "Verif.Explore.C59_sequential_partial",
    "Verif.Explore.C59_parallel_partial",
    "Verif.Explore.C59_combinations",
    "Verif.Explore.C59_empty_negation_partial"
   ],
   "note": "False for an empty parameter list: division by zero (proved for every exploration with one). Otherwise the full statement, for the sequential and the parallel macro."
  },
  {
   "property": "C60",
   "status": "partial",
   "theorems": [
    "Verif.Explore.C60_rows_partial",
    "Verif.Explore.C60_fresh_partial",
    "Verif.Explore.C60_label_negation_partial",
    "Verif.Explore.C60_state_negation_partial"
   ],
   "note": "False: repetition labels start at 1 in the one and 0 in the other, and explore_sequential! reuses the state of the previous repetition. Proved: the same number of rows, the same configuration labels, and the states of explore_parallel!."
  },
  {
   "property": "C61",
   "status": "partial",
   "theorems": [
    "Verif.Explore.C61_partial",
    "Verif.Explore.C61_label_negation_partial",
    "Verif.Explore.C61_single_partial",
    "Verif.Explore.C61_no_repetition_negation_partial",
    "Verif.Explore.C61_no_configuration_negation_partial"
   ],
   "note": "False for the labels (index in the share of the process), for no repetitions and no configurations. The rest is proved for every number of processes."
  },
  {
   "property": "C62",
   "status": "proved",
   "theorems": [
    "Verif.Genetic.C62_sequential",
    "Verif.Genetic.C62_parallel",
    "Verif.Genetic.C62_ends",
    "Verif.Genetic.C62_no_panic",
    "Verif.Genetic.C62_empty_panics"
   ],
   "note": "Full statement for the sequential and the parallel macro, for non-empty populations; an empty initial population panics (also proved)."
  },
  {
   "property": "C63",
   "status": "partial",
   "theorems": [
    "Verif.GeneticMpi.C63_split",
    "Verif.GeneticMpi.C63_rows",
    "Verif.GeneticMpi.C63_pairs_partial",
    "Verif.GeneticMpi.C63_search_partial",
    "Verif.GeneticMpi.C63_shrink_negation_partial",
    "Verif.GeneticMpi.C63_grow_negation_partial"
   ],
   "note": "The split and the rows are proved in general. False if the selection changes the size of the population: the blocks keep their old size, individuals are lost or the root panics (witnesses); with constant sizes proved for the whole search."
  },
  {
   "property": "C64",
   "status": "proved",
   "theorems": [
    "Verif.GeneticAws.C64_workload",
    "Verif.GeneticAws.C64_count"
   ],
   "note": "Full statement for at least one function (no function is a division by zero), with the sizes of the lists."
  },
  {
   "property": "C65",
   "status": "proved",
   "theorems": [
    "Verif.Search.C65_search",
    "Verif.Search.C65_comparisons",
    "Verif.Search.C65_unique",
    "Verif.Search.C65_monotone",
    "Verif.Search.C65_sample"
   ],
   "note": "Full statement, with floats including NaN and infinities; candidates that cost f32::MAX or more, or NaN, are never chosen (as the statement says)."
  },
  {
   "property": "C66",
   "status": "partial",
   "theorems": [
    "Verif.Search.C66_search_partial",
    "Verif.Search.C66_negation_partial",
    "Verif.Search.C66_no_points_negation_partial",
    "Verif.Search.C66_acquisition_partial",
    "Verif.Search.C66_acquisition_negation_partial",
    "Verif.Search.C66_improvement_partial"
   ],
   "note": "False if no value exceeds f64::MIN (an objective of minus infinity): the returned value belongs to no point (witness); no initial points panic. Otherwise the full statement. The acquisition picks a maximal score under the same condition (witness otherwise). The gaussian process is a parameter."
  },
  {
   "property": "C67",
   "status": "partial",
   "theorems": [
    "Verif.Search.C67_int_partial",
    "Verif.Search.C67_float_partial",
    "Verif.Search.C67_float_panics_partial",
    "Verif.Search.C67_zero_negation_partial",
    "Verif.Search.C67_overflow_negation_partial",
    "Verif.Search.C67_rounding_negation_partial"
   ],
   "note": "False for n = 0 (no value, although the macro computes max(n,1)), for equal bounds at the top of the type (overflow) and for huge equal float bounds (panic). Otherwise proved for integer and float types."
  },
  {
   "property": "C68",
   "status": "proved",
   "theorems": [
    "Verif.Driver.C68_repetition",
    "Verif.Driver.C68_repetitions"
   ],
   "note": "Full statement for the loop shared by simulate! (without terminal), simulate_old! and simulate_explore!; the state carries over between repetitions as in the code."
  },
  {
   "property": "C69",
   "status": "partial",
   "theorems": [
    "Verif.Monitor.C69_points_partial",
    "Verif.Monitor.C69_bounds_partial",
    "Verif.Monitor.C69_negation_partial",
    "Verif.Monitor.C69_unknown_partial",
    "Verif.Monitor.C69_existing_partial"
   ],
   "note": "False for the bounds if infinite values are plotted (witness). Proved: series, labels and csv messages for every sequence of calls that does not panic; bounds for finite values."
  },
  {
   "property": "C70",
   "status": "partial",
   "theorems": [
    "Verif.Monitor.C70_files_partial",
    "Verif.Monitor.C70_first_negation_partial",
    "Verif.Monitor.C70_second_negation_partial",
    "Verif.Monitor.C70_late_negation_partial",
    "Verif.Monitor.C70_names_negation_partial",
    "Verif.Monitor.C70_names_partial"
   ],
   "note": "False in four ways (witnesses): points plotted in init go to no file or to that of the previous repetition, plots added later have no file, names that differ in / and - share a file. Otherwise proved for any number of repetitions."
  },
  {
   "property": "C71",
   "status": "proved",
   "theorems": [
    "Verif.Monitor.C71_order",
    "Verif.Monitor.C71_current",
    "Verif.Monitor.C71_file"
   ],
   "note": "Full statement, with the stored log file."
  },
  {
   "property": "C72",
   "status": "partial",
   "theorems": [
    "Verif.Monitor.C72_keys_partial",
    "Verif.Monitor.C72_start_partial",
    "Verif.Monitor.C72_negation_partial",
    "Verif.Monitor.C72_right_left_partial",
    "Verif.Monitor.C72_left_right_partial",
    "Verif.Monitor.C72_tab_negation_partial"
   ],
   "note": "False: before the first log Up twice panics, and a tab added between right and left gives another tab (witnesses). From the first log on, proved for every sequence of events."
  },
  {
   "property": "C73",
   "status": "partial",
   "theorems": [
    "Verif.Driver.C73_reported_equal_partial",
    "Verif.Driver.C73_same_shape_partial",
    "Verif.Driver.C73_deterministic",
    "Verif.Driver.C73_negation_partial"
   ],
   "note": "False: executions of different length are reported equal if one is a prefix of the other, or panic (witnesses). Proved: what a report of equality guarantees, when it does not panic, and that a deterministic model is reported reproducible."
  },
  {
   "property": "C74",
   "status": "partial",
   "theorems": [
    "Verif.Field2D.C74_random_empty_bag_partial",
    "Verif.Field2D.C74_outside_field_negation_partial"
   ],
   "note": "False of the code: when the sizes are not multiples of the discretization a position outside the field can be returned (witness). The rest is proved, with the bound size + d."
  },
  {
   "property": "C75",
   "status": "proved",
   "theorems": [
    "Verif.Field2D.C75_iter_objects"
   ],
   "note": "Full statement for both buffers."
  },
  {
   "property": "C76",
   "status": "proved",
   "theorems": [
    "Verif.Schedule.C76_get_all_events",
    "Verif.Schedule.C76_get_all_events_after_agents"
   ],
   "note": "Full statement; added after a mutation of get_all_events survived."
  },
  {
   "property": "C77",
   "status": "proved",
   "theorems": [
    "Verif.Schedule.C77_step_threads_state_and_schedule"
   ],
   "note": "Full statement, relational over arbitrary hooks that make API calls; hooks that assign the schedule's public fields are outside the model."
  },
  {
   "property": "C78",
   "status": "proved",
   "theorems": [
    "Verif.Network.C78_get_edge",
    "Verif.Network.C78_get_edge_symmetric"
   ],
   "note": "Under the stated history restrictions."
  },
  {
   "property": "C79",
   "status": "partial",
   "theorems": [
    "Verif.Network.C79_remove_incoming_partial",
    "Verif.Network.C79_remove_outgoing_partial",
    "Verif.Network.C79_histories_partial",
    "Verif.Network.C79_documented_example_partial",
    "Verif.Network.C79_incoming_exactly_partial",
    "Verif.Network.C79_outgoing_exactly_partial",
    "Verif.Network.C79_undirected_partial"
   ],
   "note": "Exact effect proved for directed and undirected networks with any number of parallel edges, nodes published: one edge per other node is removed, so all of them exactly if there are no parallel ones. False in general: the documented example removes nothing because the nodes are not published; one of two parallel edges survives."
  },
  {
   "property": "C80",
   "status": "partial",
   "theorems": [
    "Verif.HNetwork.C80_reads_isolated_partial",
    "Verif.HNetwork.C80_not_isolated_partial",
    "Verif.HNetwork.C80_publication_partial"
   ],
   "note": "False: nodes2id is not double buffered, so get_id shows an added node and get_edges forgets a removed one before update (witnesses). get_object is isolated always, the other reads under writes that do not add or remove nodes; publication proved."
  },
  {
   "property": "C81",
   "status": "proved",
   "theorems": [
    "Verif.HNetwork.C81_get_edge",
    "Verif.HNetwork.C81_get_edge_order",
    "Verif.HNetwork.C81_remove_edge",
    "Verif.HNetwork.C81_remove_edge_panics"
   ],
   "note": "Full statement for nodes that have lists; the panic after remove_all_edges is recorded. Independence of order for get_edge needs complete published lists (see C53)."
  },
  {
   "property": "C82",
   "status": "proved",
   "theorems": [
    "Verif.KdTree.C82_own_block",
    "Verif.KdTree.C82_neighbors_exact",
    "Verif.KdTree.C82_other_id_negation"
   ],
   "note": "Full statement; a theorem shows that another id in create_tree breaks it. f32 corner comparison is exact here; rounding is not modelled."
  },
  {
   "property": "C83",
   "status": "proved",
   "theorems": [
    "Verif.KdTree.C83_mutual",
    "Verif.KdTree.C83_no_deadlock",
    "Verif.KdTree.C83_delivery",
    "Verif.KdTree.C83_lists_present"
   ],
   "note": "Mutual neighbour lists, progress of the pairwise rendezvous in every reachable state, and delivery without regions. MPI itself is modelled as blocking rendezvous and reliable transfer; that the lengths are sent in ready mode is C230."
  },
  {
   "property": "C84",
   "status": "partial",
   "theorems": [
    "Verif.KdTree.C84_halo_reaches_partial",
    "Verif.KdTree.C84_exactly_partial",
    "Verif.KdTree.C84_three_processes_negation_partial"
   ],
   "note": "Proved for 2, 4, 8, ... and for 6, 24, 96, ... processes, and false for every other number (C84_exactly_partial: an equivalence, for halo distances less than half the size of the blocks); a witness for 3. The distance is taken per axis."
  },
  {
   "property": "C85",
   "status": "proved",
   "theorems": [
    "Verif.KdTree.C85_bags_are_a_field",
    "Verif.KdTree.C85_search_is_field_search",
    "Verif.KdTree.C85_relaxed",
    "Verif.KdTree.C85_search_sound",
    "Verif.KdTree.C85_insert_read"
   ],
   "note": "Full statement; with it a soundness theorem for distances less than half the field."
  },
  {
   "property": "C86",
   "status": "partial",
   "theorems": [
    "Verif.KdTree.C86_as_if_not_removed_partial",
    "Verif.KdTree.C86_interior_partial",
    "Verif.KdTree.C86_removed_agent_sent_negation_partial"
   ],
   "note": "False: remove_object_location leaves the halo lists alone, so the agent is sent although it is in no bag (witness). Proved for all programs of insertions and removals in the own block: every process receives exactly what it would receive without the removals (C86_as_if_not_removed_partial); the property holds for agents that were farther than the halo distance from all borders (C86_interior_partial)."
  },
  {
   "property": "C87",
   "status": "partial",
   "theorems": [
    "Verif.Driver.C87_terminal_no_end_partial",
    "Verif.Driver.C87_terminal_single_partial",
    "Verif.Driver.C87_early_end_negation_partial"
   ],
   "note": "False: after a repetition that ends by end_condition the interface thread may be gone and the remaining repetitions are skipped, depending on the interleaving (witness). Proved for models that never end early and for one repetition."
  },
  {
   "property": "C88",
   "status": "partial",
   "theorems": [
    "Verif.Driver.C88_mpi_single_partial",
    "Verif.Driver.C88_second_repetition_negation_partial",
    "Verif.Driver.C88_uneven_end_negation_partial"
   ],
   "note": "False: MPI_Finalize is inside the loop over the repetitions, and processes that end at different steps wait for each other for ever. Proved for one repetition in which all processes end at the same step."
  },
  {
   "property": "C89",
   "status": "partial",
   "theorems": [
    "Verif.Driver.C89_report_partial",
    "Verif.Driver.C89_long_run_negation_partial"
   ],
   "note": "False: the widths of the report are computed by unsigned subtractions that underflow (panic in debug builds, wrap in release). Proved: exactly when they do not."
  },
  {
   "property": "C90",
   "status": "partial",
   "theorems": [
    "Verif.Explore.C90_sequential_partial",
    "Verif.Explore.C90_parallel_partial",
    "Verif.Explore.C90_configurations",
    "Verif.Explore.C90_shorter_negation_partial",
    "Verif.Explore.C90_longer_negation_partial",
    "Verif.Explore.C90_truncates_partial",
    "Verif.Explore.C90_panics_exactly_partial"
   ],
   "note": "False: a list shorter than the last one panics (proved in general), longer ones are truncated to the last one silently (proved in general). Proved for lists of one length; for all others the exact result, and that the exploration panics exactly if some list is shorter than the last."
  },
  {
   "property": "C91",
   "status": "partial",
   "theorems": [
    "Verif.GeneticMpi.C91_row_partial",
    "Verif.GeneticMpi.C91_negation_partial",
    "Verif.GeneticMpi.C91_dummy_negation_partial"
   ],
   "note": "False: the printed best starts from a made-up row of fitness 1000, which a maximisation keeps, and a real fitness of exactly 1000 panics (witnesses). Proved: the row is that of the best individual or the made-up one."
  },
  {
   "property": "C92",
   "status": "partial",
   "theorems": [
    "Verif.GeneticMpi.C92_few_negation_partial",
    "Verif.GeneticMpi.C92_small_negation_partial"
   ],
   "note": "False: more processes than individuals panic, and if the selection leaves at most one individual only the root process leaves the loop (both proved)."
  },
  {
   "property": "C93",
   "status": "partial",
   "theorems": [
    "Verif.GeneticAws.C93_best_partial",
    "Verif.GeneticAws.C93_negation_partial",
    "Verif.GeneticAws.C93_search_partial"
   ],
   "note": "False: the search starts from fitness 0, so if no fitness is positive it reports 0 and no individual (proved). Otherwise the report is right: proved for each generation and, in C93_search_partial, for the whole search."
  },
  {
   "property": "C94",
   "status": "partial",
   "theorems": [
    "Verif.GeneticAws.C94_rows_partial",
    "Verif.GeneticAws.C94_negation_partial",
    "Verif.GeneticAws.C94_finite_partial",
    "Verif.GeneticAws.C94_nan_negation_partial"
   ],
   "note": "False with more functions than runs: a function without work sends a message that is no JSON, and the search panics (proved in general); it also panics if a fitness is NaN or infinite (C94_nan_negation_partial). Otherwise the full statement, for every order of arrival."
  },
  {
   "property": "C95",
   "status": "proved",
   "theorems": [
    "Verif.Search.C95_samples"
   ],
   "note": "Full statement, for every rounding that is monotone and keeps the bounds."
  },
  {
   "property": "C96",
   "status": "partial",
   "theorems": [
    "Verif.Search.C96_evaluation_partial",
    "Verif.Search.C96_reset_partial",
    "Verif.Search.C96_negation_partial"
   ],
   "note": "False: the runs are chained on one state, and the state returned is the one left by the last run (witness). Proved: what is computed, and that it is the stated cost if a second run repeats the first."
  },
  {
   "property": "C97",
   "status": "partial",
   "theorems": [
    "Verif.Search.C97_position_partial",
    "Verif.Search.C97_panic_partial",
    "Verif.Search.C97_negation_partial"
   ],
   "note": "False: the columns are taken by position, the names are ignored (witness). Proved: the columns by position for well-formed files, and a panic otherwise."
  },
  {
   "property": "C98",
   "status": "proved",
   "theorems": [
    "Verif.Search.C98_roundtrip"
   ],
   "note": "Full statement, given that quoting is inverse in the csv crate and the parsers understand what to_string writes."
  },
  {
   "property": "C99",
   "status": "partial",
   "theorems": [
    "Verif.Monitor.C99_terminal_partial",
    "Verif.Monitor.C99_no_csv_partial",
    "Verif.Monitor.C99_negation_partial"
   ],
   "note": "False: without the terminal nothing sets the csv channel and plot! with csv: true panics (proved for every existing plot). Proved with the terminal, and without csv."
  },
  {
   "property": "C100",
   "status": "partial",
   "theorems": [
    "Verif.Monitor.C100_samples_partial",
    "Verif.Monitor.C100_negation_partial",
    "Verif.Monitor.C100_few_partial"
   ],
   "note": "False from the 101st sample on: the newest lies beyond the window (proved). Proved: which samples are held, for every number of ticks."
  },
  {
   "property": "C101",
   "status": "partial",
   "theorems": [
    "Verif.Monitor.C101_draw_partial",
    "Verif.Monitor.C101_negation_partial"
   ],
   "note": "False for 0 repetitions (proved). Otherwise proved."
  },
  {
   "property": "C102",
   "status": "proved",
   "theorems": [
    "Verif.ParGrid.C102_parallel_number_grids_are_double_buffered",
    "Verif.ParGrid.C102_apply_to_all_values",
    "Verif.ParGrid.C102_size"
   ],
   "note": "Proved for every program, processor count and hash function."
  },
  {
   "property": "C103",
   "status": "partial",
   "theorems": [
    "Verif.ParGrid.C103_sparse_agrees_partial",
    "Verif.ParGrid.C103_dense_agrees_partial",
    "Verif.ParGrid.C103_update_differs_partial",
    "Verif.ParGrid.C103_apply_read_differs_partial",
    "Verif.ParGrid.C103_not_interchangeable_partial"
   ],
   "note": "False with update and with apply_to_all_values (witnesses). Proved for programs of set and lazy_update, which is what the engine itself does: sparse everywhere, dense inside the grid."
  },
  {
   "property": "C104",
   "status": "partial",
   "theorems": [
    "Verif.ParGrid.C104_bags_and_locations_partial",
    "Verif.ParGrid.C104_each_object_in_its_bag_partial",
    "Verif.ParGrid.C104_iter_objects_partial",
    "Verif.ParGrid.C104_ghosts_exactly_partial",
    "Verif.ParGrid.C104_ghost_partial",
    "Verif.ParGrid.C104_ghost_after_update_partial"
   ],
   "note": "False: an object placed twice stays in its first bag (witnesses, also across update). Proved: what every program shows, the whole property where each object is placed at most once between two lazy updates, and that objects are only in the bag of their location exactly if none has been placed at two locations (C104_ghosts_exactly_partial)."
  },
  {
   "property": "C105",
   "status": "partial",
   "theorems": [
    "Verif.ParGrid.C105_remove_object_partial",
    "Verif.ParGrid.C105_remove_right_after_lazy_update_panics_partial",
    "Verif.ParGrid.C105_removed_object_stays_partial",
    "Verif.ParGrid.C105_panic_partial",
    "Verif.ParGrid.C105_removed_if_not_moved_partial"
   ],
   "note": "False: it panics right after a lazy_update (proved for every program), and an object moved and removed stays in its new bag (witness). Proved: the exact condition of the panic and the exact effect in every reachable grid; the property for objects that did not move."
  },
  {
   "property": "C106",
   "status": "partial",
   "theorems": [
    "Verif.ParGrid.C106_apply_to_all_values_partial",
    "Verif.ParGrid.C106_bags_keep_old_objects_partial"
   ],
   "note": "False: the bags keep the old objects (witness). Proved: it never panics, the three options do the same, the exact effect on locations and on get for closures that keep the identity."
  },
  {
   "property": "C107",
   "status": "partial",
   "theorems": [
    "Verif.ParGrid.C107_concurrent_placements_partial",
    "Verif.ParGrid.C107_lost_object_partial"
   ],
   "note": "False: two objects placed at once at a location without a bag, one is lost (witness interleaving). Proved for every interleaving: locations are right, nothing is invented, published data do not change, no object is lost where the bag exists or one object only goes."
  },
  {
   "property": "C108",
   "status": "partial",
   "theorems": [
    "Verif.ParGrid.C108_empty_bags_partial",
    "Verif.ParGrid.C108_listed_exactly_partial",
    "Verif.ParGrid.C108_emptied_bag_not_listed_partial"
   ],
   "note": "False after a removal: an emptied bag is not listed (witness). Proved for every program of placements and updates; in every reachable grid all listed cells are empty, and the empty ones left out are exactly those with a bag without objects (C108_listed_exactly_partial)."
  },
  {
   "property": "C109",
   "status": "partial",
   "theorems": [
    "Verif.ParField2D.C109_same_answers_as_sequential_partial",
    "Verif.ParField2D.C109_update_differs_partial"
   ],
   "note": "False with update, which publishes with the feature and does nothing without it (witness), and for searches with nothing published (C110). Proved for all programs of placements and lazy_update, answers equal element by element."
  },
  {
   "property": "C110",
   "status": "partial",
   "theorems": [
    "Verif.ParField2D.C110_search_panics_iff_nothing_published_partial",
    "Verif.ParField2D.C110_first_step_panics_partial"
   ],
   "note": "False: with nothing published the search divides by zero and panics; proved that it panics exactly then, after every program."
  },
  {
   "property": "C111",
   "status": "proved",
   "theorems": [
    "Verif.ParField2D.C111_get_location"
   ],
   "note": "Full statement."
  },
  {
   "property": "C112",
   "status": "proved",
   "theorems": [
    "Verif.ParField2D.C112_num_objects"
   ],
   "note": "Full statement."
  },
  {
   "property": "C113",
   "status": "partial",
   "theorems": [
    "Verif.ParField2D.C113_one_bag_per_object_partial",
    "Verif.ParField2D.C113_one_bag_exactly_partial",
    "Verif.ParField2D.C113_object_in_two_bags_partial",
    "Verif.ParField2D.C113_update_leaves_ghosts_partial"
   ],
   "note": "False: an object placed twice before a lazy_update is in both bags (or twice in one), and update leaves ghosts (witnesses). Proved where no object was placed twice in the published period and update is not used; without update this condition is exact (C113_one_bag_exactly_partial)."
  },
  {
   "property": "C114",
   "status": "partial",
   "theorems": [
    "Verif.ParField2D.C114_concurrent_placements_partial",
    "Verif.ParField2D.C114_lost_object_partial"
   ],
   "note": "False: two objects placed at once in a square without a bag, one is lost (witness interleaving). Proved for every reachable field and interleaving: locations, published data, exact contents of bags that exist or receive one object, and for the others that nothing is invented and the bag is not empty."
  },
  {
   "property": "C115",
   "status": "partial",
   "theorems": [
    "Verif.ParField2D.C115_unbuffered_reads_partial",
    "Verif.ParField2D.C115_panic_partial"
   ],
   "note": "False: get_location_unbuffered panics for an object not placed since the latest lazy_update (proved: exactly then). Everything else proved; get_unbuffered answers an object of that identity in the bag."
  },
  {
   "property": "C116",
   "status": "partial",
   "theorems": [
    "Verif.ParNetwork.C116_same_answers_partial",
    "Verif.ParNetwork.C116_same_results_partial",
    "Verif.ParNetwork.C116_differences_partial"
   ],
   "note": "False after remove_all_edges, after remove_node, and for remove_edge between unpublished nodes (witnesses). Proved, with both runs free of panics, for all histories of new nodes and edges, replaced nodes, publications, and edges removed between published nodes; returned lists equal up to order."
  },
  {
   "property": "C117",
   "status": "partial",
   "theorems": [
    "Verif.ParNetwork.C117_reads_isolated_partial",
    "Verif.ParNetwork.C117_objects_isolated",
    "Verif.ParNetwork.C117_lists_isolated",
    "Verif.ParNetwork.C117_nothing_before_publication",
    "Verif.ParNetwork.C117_removal_visible_partial"
   ],
   "note": "False: remove_node is visible at once and makes get_edge panic (witness). Proved for all histories in which nodes are only added; get_object for all histories; get_edges for all histories while the node keeps its id; and that nothing is found before the first publication."
  },
  {
   "property": "C118",
   "status": "proved",
   "theorems": [
    "Verif.ParNetwork.C118_publication",
    "Verif.ParNetwork.C118_never_forgets"
   ],
   "note": "Full statement (removed nodes therefore stay visible, C120)."
  },
  {
   "property": "C119",
   "status": "partial",
   "theorems": [
    "Verif.ParNetwork.C119_nothing_removed_partial",
    "Verif.ParNetwork.C119_then_remove_edge_panics_partial",
    "Verif.ParNetwork.C119_written_cleared_partial"
   ],
   "note": "False for every history: the publication shows every list as before, and remove_edge between present nodes panics. Proved: no list remains written, and a later edge replaces the old list of its source."
  },
  {
   "property": "C120",
   "status": "partial",
   "theorems": [
    "Verif.ParNetwork.C120_remove_node_partial",
    "Verif.ParNetwork.C120_ghost_partial"
   ],
   "note": "False: the node itself stays visible under its id, and after remove_all_edges the call panics (witnesses). Proved for histories as in C116, followed by a publication, and nodes whose edges it can find: edges and lists exactly as stated."
  },
  {
   "property": "C121",
   "status": "partial",
   "theorems": [
    "Verif.ParNetwork.C121_ids_partial",
    "Verif.ParNetwork.C121_add_node_exactly_partial",
    "Verif.ParNetwork.C121_reuse_partial"
   ],
   "note": "False after a removal: two nodes with the same id, and a new node with the edges of a removed one (witnesses). Exact condition on each add (C121_add_node_exactly_partial). Proved where nodes are only added, once each: ids 0, 1, 2, ... and new nodes without edges."
  },
  {
   "property": "C122",
   "status": "partial",
   "theorems": [
    "Verif.ParNetwork.C122_edges_fit_partial",
    "Verif.ParNetwork.C122_both_ways_partial",
    "Verif.ParNetwork.C122_exceptions_partial"
   ],
   "note": "False: get_edge panics after remove_node before the publication; remove_all_edges leaves one-sided edges (witnesses). Proved where nodes are only added; both ends for histories as in C116 with at most one edge between nodes when removing."
  },
  {
   "property": "C123",
   "status": "partial",
   "theorems": [
    "Verif.ParNetwork.C123_prob_edges_partial",
    "Verif.ParNetwork.C123_absent_partial",
    "Verif.ParNetwork.C123_reused_ids_partial",
    "Verif.ParNetwork.C123_may_choose_itself_partial"
   ],
   "note": "False after reused ids: a node added after a removal can get the id of another, then add_prob_edge can panic or write two edges to one node (witnesses). Proved, with exact counts and for every random choice, for histories that add each node once and add none after a removal; the chosen nodes may include u itself (witness)."
  },
  {
   "property": "C124",
   "status": "partial",
   "theorems": [
    "Verif.ParNetwork.C124_graph_partial",
    "Verif.ParNetwork.C124_second_node_partial",
    "Verif.ParNetwork.C124_stale_edges_partial"
   ],
   "note": "False: in a directed network the published edges of the second node stay (witness; in every directed network, C124_second_node_partial). Proved for all histories in undirected networks, and in directed ones where that node shows no edges, which is therefore exact."
  },
  {
   "property": "C125",
   "status": "proved",
   "theorems": [
    "Verif.Terminal.C125_steps_in_order",
    "Verif.Terminal.C125_repetitions_in_order",
    "Verif.Terminal.C125_messages",
    "Verif.Terminal.C125_received"
   ],
   "note": "Full statement; no key is pressed. A send that fails because the terminal has closed ends the simulation thread in the model, what it still writes then is not read."
  },
  {
   "property": "C126",
   "status": "partial",
   "theorems": [
    "Verif.Terminal.C126_last_step_lost_partial",
    "Verif.Terminal.C126_last_repetition_lost_partial",
    "Verif.Terminal.C126_calm_partial"
   ],
   "note": "False: marking the slot consumed can wipe out what was put in it since it was read; witness interleavings after which the last step, or the last repetition, is never shown. Proved for all interleavings in which no slot is written between being read and being marked, where no repetition meets its end condition."
  },
  {
   "property": "C127",
   "status": "partial",
   "theorems": [
    "Verif.Terminal.C127_quit_lost_partial",
    "Verif.Terminal.C127_calm_partial",
    "Verif.Terminal.C127_only_then_partial"
   ],
   "note": "False: Quit can be wiped out the same way and the terminal never closes (witness). Proved for all interleavings in which no slot is written between being read and being marked; that it closes only then is proved for all."
  },
  {
   "property": "C128",
   "status": "proved",
   "theorems": [
    "Verif.Visual.C128_pixels",
    "Verif.Visual.C128_size"
   ],
   "note": "Full statement; GPU upload is not modelled."
  },
  {
   "property": "C129",
   "status": "proved",
   "theorems": [
    "Verif.Visual.C129_run",
    "Verif.Visual.C129_run_without_stop",
    "Verif.Visual.C129_counter",
    "Verif.Visual.C129_paused",
    "Verif.Visual.C129_stop"
   ],
   "note": "Full statement for the events tick, Start, Stop, Pause in any order; before_render does nothing, as by default. Locks are not modelled (one thread)."
  },
  {
   "property": "C130",
   "status": "partial",
   "theorems": [
    "Verif.Visual.C130_until_the_end_partial",
    "Verif.Visual.C130_end_ignored_partial"
   ],
   "note": "False: the systems never ask end_condition (witness: simulate! ends after 3 steps, the visualization goes on). Proved up to the step where the end condition holds, for simulations whose on_init and end_condition change nothing."
  },
  {
   "property": "C131",
   "status": "partial",
   "theorems": [
    "Verif.Visual.C131_beginning_partial",
    "Verif.Visual.C131_frames_partial",
    "Verif.Visual.C131_no_new_sprite_partial",
    "Verif.Visual.C131_newcomers_not_drawn_partial"
   ],
   "note": "False for agents scheduled after the beginning: sprites are made only at the beginning and by Stop (witness). Proved: the sprites at the beginning; in each frame every sprite is drawn for its agent or hidden, if update puts the sprite at location."
  },
  {
   "property": "C132",
   "status": "partial",
   "theorems": [
    "Verif.Visual.C132_place_partial",
    "Verif.Visual.C132_visibility_ignored_partial",
    "Verif.Visual.C132_drift_partial"
   ],
   "note": "False: visibility is overwritten, and the height gets half a unit more in every frame (witness: an agent that does not move climbs without end). Proved: the rest of the transform is as update leaves it."
  },
  {
   "property": "C133",
   "status": "partial",
   "theorems": [
    "Verif.Visual.C133_present_partial",
    "Verif.Visual.C133_objects_partial",
    "Verif.Visual.C133_first_place_partial",
    "Verif.Visual.C133_removed_stays_partial"
   ],
   "note": "False: at the beginning objects are half a unit below instead of above, removed objects stay drawn, new ones are not drawn. Proved for objects of the beginning that still have a location."
  },
  {
   "property": "C134",
   "status": "partial",
   "theorems": [
    "Verif.Visual.C134_beginning_partial",
    "Verif.Visual.C134_current_partial",
    "Verif.Visual.C134_return_partial",
    "Verif.Visual.C134_static"
   ],
   "note": "False: the line is compared with the locations of the beginning, so nodes that return to them leave their line where it was. Proved when a node is away from its beginning, or both never were. New edges have no line; those of undirected networks have two."
  },
  {
   "property": "C135",
   "status": "proved",
   "theorems": [
    "Verif.Visual.C135_fills",
    "Verif.Visual.C135_aligned"
   ],
   "note": "Full statement, over exact rationals instead of f32; the projection of Bevy (viewport origin 0,0, one unit per pixel) is taken as documented."
  },
  {
   "property": "C136",
   "status": "proved",
   "theorems": [
    "Verif.Visual.C136_loaded_once",
    "Verif.Visual.C136_answers"
   ],
   "note": "Full statement; load is a parameter that may give a different handle on every call."
  },
  {
   "property": "C137",
   "status": "proved",
   "theorems": [
    "Verif.Monitor.C137_switches",
    "Verif.Monitor.C137_repetitions",
    "Verif.Monitor.C137_selection",
    "Verif.Monitor.C137_first"
   ],
   "note": "Full statement. That events may panic before the first log is C72."
  },
  {
   "property": "C138",
   "status": "proved",
   "theorems": [
    "Verif.Flockers.C138_birds_move_at_once",
    "Verif.Flockers.C138_repetitions"
   ],
   "note": "Full statement, exact arithmetic (sqrt is an arbitrary function)."
  },
  {
   "property": "C139",
   "status": "proved",
   "theorems": [
    "Verif.Flockers.C139_parallel_birds_move_at_once",
    "Verif.Flockers.C139_parallel_steps_complete",
    "Verif.Flockers.C139_same_flock"
   ],
   "note": "Full statement, exact arithmetic."
  },
  {
   "property": "C140",
   "status": "partial",
   "theorems": [
    "Verif.Flockers.C140_flat_world_panics_partial",
    "Verif.Flockers.C140_flat_world_bird_elsewhere_partial",
    "Verif.Flockers.C140_flat_world_exactly_partial"
   ],
   "note": "False: the vertical coordinate is wrapped with the width; in a world wider than high a bird that leaves at the bottom ends above the top, where the field panics or shows it in another column (witnesses). In every world wider than high a bird is where it should be exactly if it does not cross the lower or upper border (C140_flat_world_exactly_partial). For width <= height it is part of C138."
  },
  {
   "property": "C141",
   "status": "proved",
   "theorems": [
    "Verif.Sync.C141_synchronous",
    "Verif.Sync.C141_parallel_synchronous",
    "Verif.Sync.C141_parallel_steps_complete",
    "Verif.Sync.C141_repetitions"
   ],
   "note": "Full statement over the laws of a field; the state consists of the field only."
  },
  {
   "property": "C142",
   "status": "proved",
   "theorems": [
    "Verif.Sync.C142_dense_grid",
    "Verif.Sync.C142_sparse_grid",
    "Verif.Sync.C142_parallel_grid"
   ],
   "note": "Full statement."
  },
  {
   "property": "C143",
   "status": "proved",
   "theorems": [
    "Verif.Sync.C143_field",
    "Verif.Sync.C143_parallel_field"
   ],
   "note": "Full statement, exact arithmetic."
  },
  {
   "property": "C144",
   "status": "proved",
   "theorems": [
    "Verif.Sync.C144_grids_agree",
    "Verif.Sync.C144_fields_agree"
   ],
   "note": "Full statement, exact arithmetic for Field2D."
  },
  {
   "property": "C145",
   "status": "partial",
   "theorems": [
    "Verif.Network.C145_matrix_partial",
    "Verif.Network.C145_removals_partial",
    "Verif.Network.C145_panics_partial"
   ],
   "note": "False: ids have gaps after a removal and printing panics then (witness). Proved: exactly the matrix where nodes are only added; with removals the matrix if the ids are 0, 1, \u2026, a panic otherwise."
  },
  {
   "property": "C146",
   "status": "partial",
   "theorems": [
    "Verif.Keys.C146_priority_partial",
    "Verif.Keys.C146_first_partial",
    "Verif.Keys.C146_schedule_partial",
    "Verif.Keys.C146_nan_partial",
    "Verif.Keys.C146_agents_partial",
    "Verif.Keys.C146_int2d_partial",
    "Verif.Keys.C146_real2d_partial"
   ],
   "note": "False for NaN: the order of priorities is not transitive and disagrees with == (witnesses). Proved for all other times, with infinities; AgentImpl and Int2D in full; Real2D iff no coordinate is NaN."
  },
  {
   "property": "C147",
   "status": "proved",
   "theorems": [
    "Verif.Frame.C147_row",
    "Verif.Frame.C147_file",
    "Verif.Frame.C147_explore_row"
   ],
   "note": "Full statement; the distinctness of names is what the compiler requires of a struct."
  },
  {
   "property": "C148",
   "status": "proved",
   "theorems": [
    "Verif.Frame.C148_row_received",
    "Verif.Frame.C148_individual_received"
   ],
   "note": "Full statement."
  },
  {
   "property": "C149",
   "status": "partial",
   "theorems": [
    "Verif.Monitor.C149_pictures_partial",
    "Verif.Monitor.C149_alike_partial",
    "Verif.Monitor.C149_one_file_partial",
    "Verif.Monitor.C149_seven_series_partial"
   ],
   "note": "False: plots whose names differ only in / and - share a file (witness), and series i and i + 6 look alike (proved iff, witness). The rest is proved for names with different files."
  },
  {
   "property": "C150",
   "status": "proved",
   "theorems": [
    "Verif.Schedule.C150_pending_after_step",
    "Verif.Schedule.C150_once_in_every_step",
    "Verif.Schedule.C150_gone"
   ],
   "note": "Full statement."
  },
  {
   "property": "C151",
   "status": "proved",
   "theorems": [
    "Verif.Schedule.C151_step_counter_and_hooks",
    "Verif.Schedule.C151_order_within_step"
   ],
   "note": "Full statement."
  },
  {
   "property": "C152",
   "status": "proved",
   "theorems": [
    "Verif.Schedule.C152_clock_is_earliest_time",
    "Verif.Schedule.C152_clock_never_decreases"
   ],
   "note": "Full statement; \"never decreases\" under the hypotheses that agents' times do not move backwards and hooks schedule nothing in the past."
  },
  {
   "property": "C153",
   "status": "proved",
   "theorems": [
    "Verif.Schedule.C153_ids_are_consecutive"
   ],
   "note": "Full statement."
  },
  {
   "property": "C154",
   "status": "partial",
   "theorems": [
    "Verif.Schedule.C154_empty_step_exits_partial",
    "Verif.Schedule.C154_no_second_step_partial"
   ],
   "note": "False: the process exits (negation proved for every state with nothing pending; no program whose agents all stop completes two steps)."
  },
  {
   "property": "C155",
   "status": "partial",
   "theorems": [
    "Verif.Monitor.C155_all_points_partial",
    "Verif.Monitor.C155_negative_partial",
    "Verif.Monitor.C155_label_partial",
    "Verif.Monitor.C155_room_partial"
   ],
   "note": "False: if all y are negative the highest points are outside the chart, since a fifth of the (negative) maximum is added to the bound; the label at the right end of the x axis is ten too small (both proved). Proved where a point is not below zero, for every rounding."
  },
  {
   "property": "C156",
   "status": "partial",
   "theorems": [
    "Verif.Monitor.C156_alike_partial",
    "Verif.Monitor.C156_eight_partial",
    "Verif.Monitor.C156_negation_partial"
   ],
   "note": "False from nine series on (witness): yellow is twice in the list. Proved: exactly which series look alike; the first eight differ."
  },
  {
   "property": "C157",
   "status": "partial",
   "theorems": [
    "Verif.Monitor.C157_bars_partial",
    "Verif.Monitor.C157_negation_partial"
   ],
   "note": "False for values of twelve digits and for the thousandth repetition of a slow model (proved). Proved for the rest."
  },
  {
   "property": "C158",
   "status": "partial",
   "theorems": [
    "Verif.Monitor.C158_list_partial",
    "Verif.Monitor.C158_readable_partial",
    "Verif.Monitor.C158_file_partial",
    "Verif.Monitor.C158_break_partial",
    "Verif.Monitor.C158_columns_partial"
   ],
   "note": "False: the padding has no effect and a body with a line break looks like several logs (witnesses). Proved: the list with colours; type and body can be read from each line; the file can be read back if no body has a line break."
  },
  {
   "property": "C159",
   "status": "proved",
   "theorems": [
    "Verif.Visual.C159_textures_are_current",
    "Verif.Visual.C159_drawn_at_once"
   ],
   "note": "Full statement; the user's on_init calls render once for each field, as the comments ask for."
  },
  {
   "property": "C160",
   "status": "proved",
   "theorems": [
    "Verif.Visual.C160_arrow"
   ],
   "note": "In exact arithmetic (real numbers and functions); the rounding of f32 is not modelled."
  },
  {
   "property": "C161",
   "status": "proved",
   "theorems": [
    "Verif.Locks.C161_field_calls_finish"
   ],
   "note": "C161_field_calls_finish: every run of any threads is finite, can always go on to the end and ends with every thread done and no mutex held. Closures of the options WRITE and READWRITE of number grids are asked to use the written side of fields in one order (see C163); all other closures may do anything."
  },
  {
   "property": "C162",
   "status": "proved",
   "theorems": [
    "Verif.Locks.C162_parallel_steps_finish"
   ],
   "note": "C162_parallel_steps_finish: the same for whole simulations, with thread::scope as start and end events of the threads. User code is any list of field calls, scheduling and macros; Clone of agents is taken to lock nothing."
  },
  {
   "property": "C163",
   "status": "partial",
   "theorems": [
    "Verif.Locks.C163_closure_on_own_shard_hangs_partial",
    "Verif.Locks.C163_two_grids_can_hang_partial"
   ],
   "note": "False: with WRITE and READWRITE the closure runs while the shard of its key is locked. A closure that reads or writes the new value of a key in that shard of the same grid never returns, in every interleaving (C163_closure_on_own_shard_hangs_partial), and two threads that fill two grids from each other can hang (C163_two_grids_can_hang_partial). Closures that use only fields later in some order, and all closures of READ, object grids and iteration, are safe: C161_field_calls_finish (C161)."
  },
  {
   "property": "C164",
   "status": "proved",
   "theorems": [
    "Verif.Locks.C164_terminal_finishes"
   ],
   "note": "C164_terminal_finishes: all five threads with their mutexes, the channel to the CSV thread, spawn and join. The list of iterations of the terminal thread is finite, that is, the user leaves it."
  },
  {
   "property": "C165",
   "status": "partial",
   "theorems": [
    "Verif.Locks.C165_nested_macros_hang_partial",
    "Verif.Locks.C165_macros_finish_partial"
   ],
   "note": "False: log! evaluates its message while LOGS is locked, plot! and addplot! everything while DATA is locked. An argument that uses the same macro (or plot! in addplot! and vice versa) never returns, in every interleaving (C165_nested_macros_hang_partial). C165_macros_finish_partial: arguments that make any calls on fields never hang."
  },
  {
   "property": "C166",
   "status": "proved",
   "theorems": [
    "Verif.Locks.C166_systems_finish",
    "Verif.Locks.C166_simulation_and_renderer_could_hang",
    "Verif.Locks.C166_simulation_and_renderer_conflict"
   ],
   "note": "C166_systems_finish: for any set of systems that is pairwise free of conflicts over Bevy's resources. C166_simulation_and_renderer_could_hang shows that without this rule of Bevy the opposite order in which simulation_system and renderer_system lock state and schedule could hang."
  },
  {
   "property": "C167",
   "status": "proved",
   "theorems": [
    "Verif.Borrows.C167_no_borrow_error"
   ],
   "note": "C167_no_borrow_error: functions as lists of borrow, borrow_mut and release actions on the RefCells of a field; the only hypothesis is that a closure does not use the field it runs over (C168). The calls of the distributed field (Kdtree) are included."
  },
  {
   "property": "C168",
   "status": "partial",
   "theorems": [
    "Verif.Borrows.C168_nested_call_panics_iff_partial",
    "Verif.Borrows.C168_neighbours_while_visiting_partial"
   ],
   "note": "False. C168_nested_call_panics_iff_partial gives, for every iteration and every function of a grid, whether it panics (the table Clash of the specification, an equivalence). C168_neighbours_while_visiting_partial: get_neighbors_within_distance is fine while the agents are visited, get_neighbors_within_relax_distance panics although it only reads."
  },
  {
   "property": "C169",
   "status": "proved",
   "theorems": [
    "Verif.Flockers.C169_birds_keep_speed",
    "Verif.Flockers.C169_parallel_birds_keep_speed"
   ],
   "note": "C169_birds_keep_speed and C169_parallel_birds_keep_speed, for any square root with relative error below 1; positions and headings are exact rationals."
  },
  {
   "property": "C170",
   "status": "partial",
   "theorems": [
    "Verif.Flockers.C170_steering_partial",
    "Verif.Flockers.C170_alone_partial",
    "Verif.Flockers.C170_heading_not_mean_partial"
   ],
   "note": "False for the headings: the sum is divided by the number of birds twice (C170_heading_not_mean_partial: between two birds with heading (1,0) the contribution is (1/2,0)). C170_steering_partial: everything else holds, with the heading weighted by one over the number of birds; C170_alone_partial: a bird that sees nothing goes on. Random numbers (1/2, 1/2) give 0/0 in the code, 0 in the model."
  },
  {
   "property": "C171",
   "status": "partial",
   "theorems": [
    "Verif.Single.C171_rounded_partial",
    "Verif.Single.C171_nonnegative_partial",
    "Verif.Single.C171_lands_on_dim_partial",
    "Verif.Single.C171_below_dim_negation_partial"
   ],
   "note": "False on every torus: all val with -dim/2^26 <= val < 0 are sent to dim itself (C171_lands_on_dim_partial, for every single dim > 0; C171_below_dim_negation_partial). Proved: a single in [0, dim], within one rounding of the representative (C171_rounded_partial); exact and below dim for val >= 0 (C171_nonnegative_partial)."
  },
  {
   "property": "C172",
   "status": "proved",
   "theorems": [
    "Verif.Single.C172_ieee_rounding",
    "Verif.Single.C172_antisymmetric",
    "Verif.Single.C172_half_turn",
    "Verif.Single.C172_shortest_way"
   ],
   "note": "C172_antisymmetric, C172_half_turn, C172_shortest_way; for every rounding to nearest. C172_ieee_rounding: the rounding and the square root used in C171-C175 meet the IEEE rules (nearest, ties to even, square root correctly rounded). The root of a single is itself a single (rootLands)."
  },
  {
   "property": "C173",
   "status": "partial",
   "theorems": [
    "Verif.Single.C173_history_partial",
    "Verif.Single.C173_corner_panics_partial",
    "Verif.Single.C173_rounded_square_partial"
   ],
   "note": "False of large fields: the number of bags is computed as a single, 5000 by 5000 cells get 25010000 bags for 25010001 cells and the far corner panics (C173_corner_panics_partial). False of exact squares: 0.7f32 is below 7 * 0.1f32 but in cell 7 (C173_rounded_square_partial). Proved for fields of at most 2^24 cells, with squares up to a relative error of 2^-24 (C173_history_partial)."
  },
  {
   "property": "C174",
   "status": "partial",
   "theorems": [
    "Verif.Single.C174_sound_partial",
    "Verif.Single.C174_guaranteed_radius_partial",
    "Verif.Single.C174_relaxed_partial",
    "Verif.Single.C174_too_far_negation_partial",
    "Verif.Single.C174_seam_negation_partial"
   ],
   "note": "False: an object farther than the distance is returned when the computed distance is rounded down (C174_too_far_negation_partial); an agent wrapped across the seam onto dim is not found from its own location (C174_seam_negation_partial); the gaps of C38 remain. Proved, with an allowance of (dis + w + h + d)/2^18: only published objects within dis + allowance (C174_sound_partial; on a torus for distances below half a side less a cell), every one within dis - 3d/2 - allowance and clear of the upper border (C174_guaranteed_radius_partial), the relaxed search (C174_relaxed_partial)."
  },
  {
   "property": "C175",
   "status": "proved",
   "theorems": [
    "Verif.Single.C175_wrapped_positions"
   ],
   "note": "C175_wrapped_positions."
  },
  {
   "property": "C176",
   "status": "proved",
   "theorems": [
    "Verif.Panics.C176_sequential",
    "Verif.Panics.C176_sequential_same",
    "Verif.Panics.C176_parallel",
    "Verif.Panics.C176_parallel_same",
    "Verif.Panics.C176_scope_ends",
    "Verif.Panics.C176_every_order"
   ],
   "note": "C176_parallel, C176_every_order, C176_scope_ends, C176_parallel_same; C176_sequential, C176_sequential_same. Panics of the state's hooks (caller's thread), of Clone and panic=abort are not modelled. The world after a panic is pinned: the state is the one the panicking hook left, and the observer saw exactly the hooks up to it."
  },
  {
   "property": "C177",
   "status": "partial",
   "theorems": [
    "Verif.TerminalModes.C177_returned_partial",
    "Verif.TerminalModes.C177_left_partial",
    "Verif.TerminalModes.C177_simulation_panics_partial",
    "Verif.TerminalModes.C177_unusual_partial",
    "Verif.TerminalModes.C177_drawing_fails_partial",
    "Verif.TerminalModes.C177_returns_partial",
    "Verif.TerminalModes.C177_entered_partial",
    "Verif.TerminalModes.C177_entering_fails_partial",
    "Verif.TerminalModes.C177_leaving_fails_partial"
   ],
   "note": "Holds when simulate! returns (C177_returned_partial) and as soon as the terminal thread has ended without a panic (C177_left_partial). False if the simulation panics (C177_simulation_panics_partial, C177_unusual_partial) or drawing fails (C177_drawing_fails_partial): nothing restores the terminal. C177_returns_partial: runs that return exist from every moment at which the terminal is shown."
  },
  {
   "property": "C178",
   "status": "partial",
   "theorems": [
    "Verif.DenseI32.C178_number_grid_partial",
    "Verif.DenseI32.C178_usable_iff_partial",
    "Verif.DenseI32.C178_alias_partial",
    "Verif.DenseI32.C178_object_grid_partial"
   ],
   "note": "Proved for grids of fewer than 2^31 cells (C178_number_grid_partial, C178_object_grid_partial). False for all bigger ones: C178_usable_iff_partial; in release builds cells alias: C178_alias_partial."
  },
  {
   "property": "C179",
   "status": "partial",
   "theorems": [
    "Verif.ScheduleU32.C179_counts_agents_partial",
    "Verif.ScheduleU32.C179_panics_partial",
    "Verif.ScheduleU32.C179_overwrites_partial"
   ],
   "note": "Proved for fewer than 2^32 agents (C179_counts_agents_partial). Then a debug build panics (C179_panics_partial) and a release build drops the new agent and moves agent 0 (C179_overwrites_partial)."
  },
  {
   "property": "C180",
   "status": "partial",
   "theorems": [
    "Verif.Single.C180_corners_partial",
    "Verif.Single.C180_unrounded_partial",
    "Verif.Single.C180_not_empty_partial",
    "Verif.Single.C180_not_there_partial"
   ],
   "note": "C180_corners_partial: what the functions return, and that the location is in the cell meant or the one before. C180_unrounded_partial: the claim for discretizations whose multiples are singles. False for 0.9: C180_not_empty_partial, C180_not_there_partial."
  },
  {
   "property": "C181",
   "status": "partial",
   "theorems": [
    "Verif.Machine.C181_numbers_partial",
    "Verif.Machine.C181_nan_stored_partial",
    "Verif.Machine.C181_infinite_refused_partial",
    "Verif.Machine.C181_infinity_stored_partial",
    "Verif.Machine.C181_nan_found_partial",
    "Verif.Machine.C181_arithmetic_partial",
    "Verif.Machine.C181_conversions_partial"
   ],
   "note": "C181_numbers_partial: positions that are numbers in the field, both builds (this also discharges the simplifications of C173: no infinity, no saturation and no i32 overflow occurs there). C181_infinite_refused_partial: a debug build refuses infinities. False for NaN in both builds (C181_nan_stored_partial, C181_nan_found_partial) and for minus infinity in release builds with an even number of rows (C181_infinity_stored_partial). C181_arithmetic_partial, C181_conversions_partial: the operations used are those of IEEE 754 (limits at infinities, nearest single otherwise) and the casts of Rust."
  },
  {
   "property": "C182",
   "status": "partial",
   "theorems": [
    "Verif.Machine.C182_sound_partial",
    "Verif.Machine.C182_guaranteed_radius_partial",
    "Verif.Machine.C182_dividing_line_partial",
    "Verif.Machine.C182_huge_distance_partial"
   ],
   "note": "C182_sound_partial and C182_guaranteed_radius_partial: distances of at most 2^31 - 2^25 cells, both builds. C182_dividing_line_partial settles every distance: the search answers as with unbounded integers if its ends fit in an i32, and otherwise panics in debug builds and finds nothing in release builds; C182_huge_distance_partial is the case of infinite distances and of 2^31 cells or more outside the first cell."
  },
  {
   "property": "C183",
   "status": "partial",
   "theorems": [
    "Verif.Machine.C183_wrap_partial",
    "Verif.Machine.C183_wrap_infinity_partial",
    "Verif.Machine.C183_search_nan_partial",
    "Verif.Machine.C183_relaxed_nan_partial"
   ],
   "note": "C183_wrap_partial: numbers. C183_search_nan_partial: the exact search around NaN returns nothing. False for infinities (C183_wrap_infinity_partial: the result is NaN) and for the relaxed search, which takes NaN for 0 (C183_relaxed_nan_partial)."
  },
  {
   "property": "C184",
   "status": "proved",
   "theorems": [
    "Verif.Sync.C184_arranged",
    "Verif.Sync.C184_parallel_arranged",
    "Verif.Sync.C184_parallel_steps_complete",
    "Verif.Sync.C184_repetitions",
    "Verif.Sync.C184_dense_grid",
    "Verif.Sync.C184_parallel_grid",
    "Verif.Sync.C184_order_matters"
   ],
   "note": "C184_order_matters shows that the arrangement cannot be dropped: the population does depend on it for such rules."
  },
  {
   "property": "C185",
   "status": "proved",
   "theorems": [
    "Verif.Machine.C185_machine_field",
    "Verif.Machine.C185_repetitions"
   ],
   "note": "Sequential build; with the feature parallel C191."
  },
  {
   "property": "C186",
   "status": "partial",
   "theorems": [
    "Verif.Machine.C186_flock_stays_inside_partial",
    "Verif.Machine.C186_new_birds_partial",
    "Verif.Machine.C186_draw_partial",
    "Verif.Machine.C186_nan_stays_partial",
    "Verif.Machine.C186_nan_spreads_partial",
    "Verif.Machine.C186_flock_lost_partial",
    "Verif.ParMachine.C186_parallel_flock_stays_inside_partial"
   ],
   "note": "C186_flock_stays_inside_partial and C186_parallel_flock_stays_inside_partial (with C186_new_birds_partial for the birds of init): worlds not wider than high (both coordinates are wrapped with the width, C140) in which no bird draws 1/2 twice in one turn. False otherwise: C186_draw_partial (0/0, for every bird, world and neighbourhood), C186_nan_stays_partial, C186_nan_spreads_partial, and a whole run in which the flock is lost, C186_flock_lost_partial."
  },
  {
   "property": "C187",
   "status": "partial",
   "theorems": [
    "Verif.Machine.C187_same_flock_partial",
    "Verif.Machine.C187_order_matters_partial",
    "Verif.ParMachine.C187_parallel_same_flock_partial"
   ],
   "note": "C187_same_flock_partial, C187_parallel_same_flock_partial: at most three birds, the same numbers in every turn. False for four birds: C187_order_matters_partial."
  },
  {
   "property": "C188",
   "status": "partial",
   "theorems": [
    "Verif.ParMachine.C188_history_partial",
    "Verif.ParMachine.C188_nan_shown_partial",
    "Verif.ParMachine.C188_far_shown_partial"
   ],
   "note": "C188_history_partial: all programs and positions; cells are squares up to 2^30 cells from the origin on either side. False beyond: C188_nan_shown_partial, C188_far_shown_partial, after every program."
  },
  {
   "property": "C189",
   "status": "partial",
   "theorems": [
    "Verif.ParMachine.C189_same_answers_partial",
    "Verif.ParMachine.C189_outside_partial"
   ],
   "note": "C189_same_answers_partial: positions in the field, something published, distances up to 2^30 cells, affordable capacity. False otherwise: C189_outside_partial; also C110, C190."
  },
  {
   "property": "C190",
   "status": "partial",
   "theorems": [
    "Verif.ParMachine.C190_affordable_partial",
    "Verif.ParMachine.C190_infinite_partial",
    "Verif.ParMachine.C190_wraps_partial",
    "Verif.ParMachine.C190_asked_partial"
   ],
   "note": "C190_affordable_partial: every program. False otherwise: C190_infinite_partial (every field with at least one unit of area per object), C190_wraps_partial (finite distances; debug and release differ); C190_asked_partial shows what is asked for in an ordinary field."
  },
  {
   "property": "C191",
   "status": "proved",
   "theorems": [
    "Verif.ParMachine.C191_parallel_machine_field",
    "Verif.ParMachine.C191_steps_complete"
   ],
   "note": "C191_parallel_machine_field, C191_steps_complete."
  },
  {
   "property": "C192",
   "status": "partial",
   "theorems": [
    "Verif.MachineSchedule.C192_due_partial",
    "Verif.MachineSchedule.C192_nan_first_partial",
    "Verif.MachineSchedule.C192_two_partial",
    "Verif.MachineSchedule.C192_together_partial"
   ],
   "note": "C192_due_partial: every program and hooks that do not pass NaN, infinite times included. False with NaN: C192_nan_first_partial (all pending agents run at once), C192_two_partial (any two agents, any resolution of ties), C192_together_partial (witness)."
  },
  {
   "property": "C193",
   "status": "partial",
   "theorems": [
    "Verif.MachineSchedule.C193_served_partial",
    "Verif.MachineSchedule.C193_starves_partial",
    "Verif.MachineSchedule.C193_stuck_partial",
    "Verif.MachineSchedule.C193_never_partial",
    "Verif.MachineSchedule.C193_stuck_iff_partial",
    "Verif.MachineSchedule.C193_reached_partial",
    "Verif.MachineSchedule.C193_waits_iff_partial"
   ],
   "note": "C193_served_partial: times from -2^24 to 2^24, with a bound for the number of steps. False beyond: C193_starves_partial (wherever adding 1 does nothing), C193_stuck_partial (2^24, -2^24 - 4, infinities), C193_never_partial (witnesses, for every number of steps). All times: C193_reached_partial (an agent gets its turn unless another one would come to a halt before it), C193_waits_iff_partial (among agents that repeat and never stop, exactly those wait for ever before whose time another comes to a halt), C193_stuck_iff_partial (exactly where: the multiples of 4 from 2^24 on and below -2^24)."
  },
  {
   "property": "C194",
   "status": "proved",
   "theorems": [
    "Verif.MachineSchedule.C194_nobody_lost"
   ],
   "note": "C194_nobody_lost."
  },
  {
   "property": "C195",
   "status": "partial",
   "theorems": [
    "Verif.KdMachine.C195_location_partial",
    "Verif.KdMachine.C195_gap_partial",
    "Verif.KdMachine.C195_nan_partial"
   ],
   "note": "C195_location_partial: fields that can be halved within 24 bits (e.g. integer sides), every rounding to the nearest. False otherwise: C195_gap_partial (seven processes on a field from 0.7 of width 1.2), C195_nan_partial (a NaN coordinate, every field)."
  },
  {
   "property": "C196",
   "status": "partial",
   "theorems": [
    "Verif.KdMachine.C196_layout_partial",
    "Verif.KdMachine.C196_neighbors_partial",
    "Verif.KdMachine.C196_halo_partial",
    "Verif.KdMachine.C196_lost_neighbours_partial"
   ],
   "note": "C196_layout_partial, C196_neighbors_partial, C196_halo_partial: fields that can be halved within 24 bits. False otherwise: C196_lost_neighbours_partial (25 processes, sides 1.1 at the origin)."
  },
  {
   "property": "C197",
   "status": "proved",
   "theorems": [
    "Verif.KdMachine.C197_blocks",
    "Verif.KdMachine.C197_mutual",
    "Verif.KdMachine.C197_no_deadlock"
   ],
   "note": "C197_blocks, C197_mutual, C197_no_deadlock."
  },
  {
   "property": "C198",
   "status": "partial",
   "theorems": [
    "Verif.DenseObject.C198_dense_shows_the_newest_partial",
    "Verif.SparseObject.C198_sparse_shows_the_newest_partial",
    "Verif.SparseObject.C198_sparse_exactly_partial",
    "Verif.SparseObject.C198_sparse_shows_the_old_version_partial",
    "Verif.Field2D.C198_field_shows_the_newest_partial",
    "Verif.Field2D.C198_field_exactly_partial",
    "Verif.Field2D.C198_field_shows_the_old_version_partial"
   ],
   "note": "Holds for DenseGrid2D (C198_dense_shows_the_newest_partial) and, for callers who remove the old version first, for SparseGrid2D and Field2D. False for these two otherwise: C198_sparse_shows_the_old_version_partial, C198_field_shows_the_old_version_partial. Exactly: these two show all versions placed since an equal object was removed, so each object is shown once iff none was placed twice since then (C198_sparse_exactly_partial, C198_field_exactly_partial). With the feature parallel the bags of the grids hold newest versions by C104."
  },
  {
   "property": "C199",
   "status": "partial",
   "theorems": [
    "Verif.Genetic.C199_compare_partial",
    "Verif.Genetic.C199_good_negation_partial",
    "Verif.Genetic.C199_one_left_negation_partial"
   ],
   "note": "False: after a good individual the parallel search evaluates the rest of the generation and may report a better one (C199_good_negation_partial), and it goes on with a selection of one where the sequential search ends (C199_one_left_negation_partial). Proved: if the selection never leaves exactly one, the parallel rows are the sequential rows followed only by rows of the last generation, and without good individuals both agree."
  },
  {
   "property": "C200",
   "status": "partial",
   "theorems": [
    "Verif.Genetic.C200_best_partial",
    "Verif.Genetic.C200_floats_partial",
    "Verif.Genetic.C200_first_negation_partial",
    "Verif.Genetic.C200_later_negation_partial"
   ],
   "note": "False: a NaN of the very first individual is reported as the best for ever, and a generation that begins with NaN is overlooked (witnesses). Proved: otherwise the best is a number that no individual beats, except individuals of generations that begin with NaN (C200_best_partial)."
  },
  {
   "property": "C201",
   "status": "partial",
   "theorems": [
    "Verif.GeneticAws.C201_search_partial",
    "Verif.GeneticAws.C201_ends_partial",
    "Verif.GeneticAws.C201_order_negation_partial",
    "Verif.GeneticAws.C201_growth_negation_partial"
   ],
   "note": "False: the mutation is applied before the crossover (C201_order_negation_partial) and the selection gets each individual once per repetition, so populations grow by that factor (C201_growth_negation_partial). Proved for every order of arrival: everything else of the statement (C201_search_partial), and that with a limit the search ends without a panic if no population is too small for the functions (C201_ends_partial)."
  },
  {
   "property": "C202",
   "status": "partial",
   "theorems": [
    "Verif.GeneticAws.C202_individuals_partial",
    "Verif.GeneticAws.C202_backslash_negation_partial",
    "Verif.GeneticAws.C202_quote_negation_partial",
    "Verif.GeneticAws.C202_newline_negation_partial"
   ],
   "note": "False: the functions write the individual into JSON without escapes. Proved: it comes back exactly if it has no quote, backslash or control character (C202_individuals_partial); witnesses for a changed individual, a lost one and a panic."
  },
  {
   "property": "C203",
   "status": "partial",
   "theorems": [
    "Verif.Terminal.C203_behind_negation_partial",
    "Verif.Terminal.C203_first_partial",
    "Verif.Terminal.C203_progress_partial",
    "Verif.Terminal.C203_witness_negation_partial",
    "Verif.Terminal.C203_before_negation_partial"
   ],
   "note": "False: in every interleaving, once a repetition has been finished the terminal says at most the number of finished ones, never the one that runs (C203_behind_negation_partial); it says 1/n before any step and shows the last repetition as complete until the next has made a step. Proved: the first repetition is shown right, and after a step the step number is one that was made and the progress is in (0,1] (C203_progress_partial)."
  },
  {
   "property": "C204",
   "status": "partial",
   "theorems": [
    "Verif.Monitor.C204_steady_partial",
    "Verif.Monitor.C204_random_negation_partial",
    "Verif.Monitor.C204_panic_negation_partial",
    "Verif.Monitor.C204_order_partial"
   ],
   "note": "False: the arguments are evaluated up to six times; a random number gives a point outside the bounds of its chart and another one in the file, a name that changes makes plot! panic (witnesses). Proved for expressions with the same value each time, whatever their effects (C204_steady_partial). C204_order_partial: order and number of evaluations."
  },
  {
   "property": "C205",
   "status": "proved",
   "theorems": [
    "Verif.Slider.C205_keeps",
    "Verif.Slider.C205_moves",
    "Verif.Slider.C205_frames"
   ],
   "note": "Full statement with f64 rounded to 53 bits, ties to even. Assumes of the libraries: Duration::from_secs_f64 takes the nearest nanosecond (Rust 1.63 and later), a slider that is not moved only clamps its value."
  },
  {
   "property": "C206",
   "status": "partial",
   "theorems": [
    "Verif.Texts.C206_cells_partial",
    "Verif.Texts.C206_locations_partial",
    "Verif.Texts.C206_priorities_partial",
    "Verif.Texts.C206_agents_partial",
    "Verif.Texts.C206_numbers_partial",
    "Verif.Texts.C206_zero_nan_negation_partial",
    "Verif.Texts.C206_agent_negation_partial",
    "Verif.Texts.C206_reading_partial"
   ],
   "note": "False: zero and minus zero are equal and print differently, NaN prints alike and is not equal, agents with the same id are equal and print whether they repeat (witnesses). Proved: grid cells exactly; locations, priorities and scheduled agents print the same if and only if all parts are the same, NaN counted as one; locations without zeros and NaN exactly. The decimal text of a float is a parameter that reads back, begins with a digit and has no space."
  },
  {
   "property": "C207",
   "status": "partial",
   "theorems": [
    "Verif.Builder.C207_settings_partial",
    "Verif.Builder.C207_all_given_partial",
    "Verif.Builder.C207_defaults_negation_partial",
    "Verif.Builder.C207_window_negation_partial",
    "Verif.Builder.C207_effect_partial"
   ],
   "note": "False: the size of the window has no effect, the application is the same for all sizes (C207_window_negation_partial), and the defaults of both sizes and of the background are not the documented ones (C207_defaults_negation_partial). Proved: each setting is the one given last or the default of the code, and the other settings have their effect."
  },
  {
   "property": "C208",
   "status": "partial",
   "theorems": [
    "Verif.Dispatch.C208_modes_partial",
    "Verif.Dispatch.C208_otherwise_partial",
    "Verif.Dispatch.C208_distributed_negation_partial",
    "Verif.Dispatch.C208_cloud_negation_partial"
   ],
   "note": "False: the conditions on features are about the calling crate, not the library, so that a distributed exploration panics unless the caller has a feature of the same name, and the cloud mode runs nothing. Proved: exactly when the promise is kept (C208_modes_partial)."
  },
  {
   "property": "C209",
   "status": "partial",
   "theorems": [
    "Verif.DBDashMap.C209_unchanged_partial",
    "Verif.DBDashMap.C209_more_processors_partial",
    "Verif.DBDashMap.C209_fewer_processors_partial",
    "Verif.DBDashMap.C209_fewer_processors_merge_partial",
    "Verif.DBDashMap.C209_lost_partial"
   ],
   "note": "False: with more processors (past a power of two) the three calls panic on every map, with fewer they skip the last shards (C209_more_processors_partial, C209_fewer_processors_partial, C209_fewer_processors_merge_partial, C209_lost_partial). Proved: unchanged behaviour as long as four times the number, rounded up to a power of two, stays the same (C209_unchanged_partial). Assumed: num_cpus::get() may answer differently at each call, as it does on Linux when the affinity of the process changes."
  },
  {
   "property": "C210",
   "status": "partial",
   "theorems": [
    "Verif.Network.C210_get_edges_partial",
    "Verif.Network.C210_documented_partial",
    "Verif.Network.C210_documentation_examples_partial"
   ],
   "note": "False: both examples of the documentation fail (C210_documentation_examples_partial). Proved: what get_edges returns after every such program (C210_get_edges_partial) and exactly when it has the documented length (C210_documented_partial): no edge enters the node from another one (directed), every edge at the node is a loop (undirected)."
  },
  {
   "property": "C211",
   "status": "partial",
   "theorems": [
    "Verif.Field2D.C211_count_partial",
    "Verif.Field2D.C211_never_documented_partial"
   ],
   "note": "False of every field: as long as nothing is published there are at least w/d + h/d + 1 bags more than documented (C211_never_documented_partial). Proved: empty bags and occupied cells always make (ceil(w/d) + 1)(ceil(h/d) + 1), so the second half of the property holds (C211_count_partial)."
  },
  {
   "property": "C212",
   "status": "proved",
   "theorems": [
    "Verif.Network.C212_textbook",
    "Verif.Network.C212_degrees",
    "Verif.ParNetwork.C212_parallel"
   ],
   "note": "The process is written down on its own as `textbook` on a list of edges (Spec/NetworkPA); the published lists are exactly those of its edges, in order, for every drawing function that returns different positions when all weights are positive (GoodPick). C212_degrees: the weight is the length of the list of the node in an undirected network, and that plus the number of edges leading to the node in a directed one. In the parallel directed network the list of the second node can be a stale one (C124), the other lists, which hold all edges but none of that node's, are as stated. Weights are i32 in the code and integers in the model; the sampling itself (rand) is the drawing function."
  },
  {
   "property": "C213",
   "status": "proved",
   "theorems": [
    "Verif.Sync.C213_network",
    "Verif.Sync.C213_repetitions",
    "Verif.Sync.C213_parallel_network",
    "Verif.Sync.C213_attachment",
    "Verif.Sync.C213_parallel_attachment",
    "Verif.Sync.C213_agree"
   ],
   "note": "Spec: nextNodes / nodesAt on a list of numbered nodes (Spec/SyncNodes); the graph the agents see is joinedTo of the edges given to add_edge, or of the textbook process of C212. The network holds unlabelled edges (labels and weights are not looked at by such programs). A node whose agent died stays in the network with its last record. An agent without list of edges (second node of a directed network after preferential attachment, C124) is taken to see nobody. C213_repetitions: any number of repetitions."
  },
  {
   "property": "C214",
   "status": "proved",
   "theorems": [
    "Verif.Sync.C214_spread",
    "Verif.Sync.C214_parallel_spread"
   ],
   "note": "A consequence of C213 for one rule: Within counts edges on the list of pairs given to add_edge. In a directed network an agent looks along its outgoing edges, so the infection runs against them."
  },
  {
   "property": "C215",
   "status": "partial",
   "theorems": [
    "Verif.Network.C215_pairs_partial",
    "Verif.Network.C215_agents_partial",
    "Verif.Network.C215_conflict_partial"
   ],
   "note": "False as stated: an edge added by one agent and removed by another, or one of two undirected edges removed by both of its ends, depends on who acts first (C215_conflict_partial, both implementations). Proved for all agents and all orders when for every pair of nodes at most one agent changes the edges between them or all of them only add edges there (C215_agents_partial), and for any two histories with the same calls, in the same order, about every pair (C215_pairs_partial). The history before the step is restricted as in C116 (no remove_node, no remove_all_edges), followed by a publication."
  },
  {
   "property": "C216",
   "status": "proved",
   "theorems": [
    "Verif.Sync.C216_hypernetwork",
    "Verif.Sync.C216_repetitions",
    "Verif.Sync.C216_parallel_hypernetwork",
    "Verif.Sync.C216_agree"
   ],
   "note": "Spec: nextNodes / nodesAt of C213 with hyperView, on the hyperedges given to add_edge (unlabelled; each with its members given once and no two with the same members, since add_edge otherwise adds only a part, C55). HNetwork has one implementation for both features; the parallel theorem takes each call of an agent as atomic, which the state's lock provides. C216_agree: the result is the same with and without the feature when the rule uses neither randomness nor the order of the members. C216_repetitions: any number of repetitions."
  },
  {
   "property": "C217",
   "status": "proved",
   "theorems": [
    "Verif.Sync.C217_dense_cells",
    "Verif.Sync.C217_sparse_cells",
    "Verif.Sync.C217_parallel_cells",
    "Verif.Sync.C217_agree"
   ],
   "note": "Spec: nextPop / popAt of C141 with cellView: the value of a cell is that of the agent whose cell it is. C217_agree: without randomness both sequential grids, published either way, and the parallel grids published with lazy_update hold the same agents and publish the same numbers. The parallel theorem takes each call of an agent as atomic, which the state's lock provides. With the feature parallel and update the property fails: C218."
  },
  {
   "property": "C218",
   "status": "partial",
   "theorems": [
    "Verif.Sync.C218_parallel_update_partial",
    "Verif.Sync.C218_nobody_dies_partial",
    "Verif.Sync.C218_dead_cell_partial"
   ],
   "note": "False with the feature parallel: update keeps the write buffer, so the cell of an agent that died shows its last number for good and the others go on counting it, while lazy_update, and both calls without the feature, empty it (C218_dead_cell_partial, where two steps end with 17 instead of 12). C218_parallel_update_partial says exactly what update does there; C218_nobody_dies_partial: as long as nobody dies it does the same as lazy_update. Sequentially the property holds (fast is arbitrary in C217)."
  },
  {
   "property": "C219",
   "status": "partial",
   "theorems": [
    "Verif.Scent.C219_dense_trail_partial",
    "Verif.Scent.C219_sparse_trail_partial",
    "Verif.Scent.C219_parallel_trail_partial",
    "Verif.Scent.C219_later_deposits_partial",
    "Verif.Scent.C219_first_deposit_partial"
   ],
   "note": "Proved for the dense grid without the feature (C219_dense_trail_partial). False of the sparse grid and of both grids with the feature parallel: a number deposited in a cell that shows nothing does not evaporate in the step of its deposit (C219_first_deposit_partial). What these grids show is proved exactly (C219_sparse_trail_partial, C219_parallel_trail_partial): the same except that the first deposit in a cell has evaporated once less (C219_later_deposits_partial)."
  },
  {
   "property": "C220",
   "status": "partial",
   "theorems": [
    "Verif.Scent.C220_order_partial",
    "Verif.Scent.C220_conflict_partial",
    "Verif.Scent.C220_not_any_order_partial"
   ],
   "note": "Holds iff no two writes of a step put different numbers into the same cell: C220_order_partial for all trails of C219 (with f the identity: plain writes), C220_conflict_partial for every step with such a conflict, C220_not_any_order_partial a concrete program. C217 is the case where every agent writes its own cell."
  },
  {
   "property": "C221",
   "status": "proved",
   "theorems": [
    "Verif.Births.C221_generations",
    "Verif.Births.C221_repetitions",
    "Verif.Births.C221_parallel_generations",
    "Verif.Births.C221_parallel_completes"
   ],
   "note": "C221_generations (sequential), C221_parallel_generations (every interleaving), C221_parallel_completes. The field is any field with the laws of C141; offspring get their identities from a counter of the state, as is usual in models of the crate; the random values and the identities are those of some choice without repetition (FreshDraws, FreshNames), since both depend on the order of the turns. C221_repetitions: any number of repetitions without a reset; identities of newborn are never given again."
  },
  {
   "property": "C222",
   "status": "proved",
   "theorems": [
    "Verif.Births.C222_dense_grid",
    "Verif.Births.C222_sparse_grid",
    "Verif.Births.C222_parallel_grid",
    "Verif.Births.C222_field",
    "Verif.Births.C222_parallel_field"
   ],
   "note": "C222_dense_grid, C222_sparse_grid, C222_parallel_grid, C222_field, C222_parallel_field: C221 with the laws of the fields from C142 and C143. Field2D over exact numbers."
  },
  {
   "property": "C223",
   "status": "partial",
   "theorems": [
    "Verif.Reproduce.C223_ignored_partial",
    "Verif.Reproduce.C223_nobody_new_partial",
    "Verif.Reproduce.C223_parallel_nobody_new_partial",
    "Verif.Reproduce.C223_not_scheduled_partial",
    "Verif.Reproduce.C223_false_partial"
   ],
   "note": "False of the code: Schedule::step drops both results. C223_ignored_partial: programs that differ only in what their agents return are in the same world after every number of steps, sequential and parallel; C223_nobody_new_partial and C223_parallel_nobody_new_partial: nobody is ever added unless the hooks of the state call the schedule; C223_not_scheduled_partial and C223_false_partial: a bacterium whose children never live. C221 is what does work: a list in the state, scheduled by after_step of the state."
  },
  {
   "property": "C224",
   "status": "partial",
   "theorems": [
    "Verif.Driver.C224_init_sets_all_partial",
    "Verif.Driver.C224_same_runs_partial",
    "Verif.Driver.C224_only_then_partial",
    "Verif.Sync.C224_fields_partial",
    "Verif.Driver.C224_trail_partial"
   ],
   "note": "False: none of the macros calls reset, and a trail on a number grid that evaporates goes on into the next repetition although reset makes a new grid and check_reproducibility! (which does reset) reports equal runs. Proved: the repetitions are those with a reset if init sets all that reset resets, and only if a second init does not see whether the state was reset; then all are the same run, with and without terminal; models of agents on double-buffered fields as in C141 need no reset."
  },
  {
   "property": "C225",
   "status": "partial",
   "theorems": [
    "Verif.KdTree.C225_same_agents_partial",
    "Verif.KdTree.C225_owners_partial",
    "Verif.KdTree.C225_three_processes_negation_partial",
    "Verif.KdTree.C225_long_steps_negation_partial",
    "Verif.KdTree.C225_order_negation_partial"
   ],
   "note": "Proved for 2, 4, 8, ... and 6, 24, 96, ... processes (where the boxes form a grid), all placements and all numbers of steps, if the rule does not depend on the order of what is seen, agents move at most delta along each axis, see at most the halo distance d, and d and delta are less than half the size of the blocks. False with three processes, for agents that walk over a whole block (with eight processes they are lost), and for rules that depend on the order: a witness each. Floats are exact rationals; MPI is what its calls mean."
  },
  {
   "property": "C226",
   "status": "partial",
   "theorems": [
    "Verif.KdTree.C226_same_sight_partial",
    "Verif.KdTree.C226_three_processes_negation_partial",
    "Verif.KdTree.C226_short_halo_negation_partial"
   ],
   "note": "Proved for 2, 4, 8, ... and 6, 24, 96, ... processes under the conditions of C225. False with three processes and for agents that look further than the halo distance: a witness each."
  },
  {
   "property": "C227",
   "status": "partial",
   "theorems": [
    "Verif.Explore.C227_table_exactly_partial",
    "Verif.Explore.C227_one_entry_only_if_partial",
    "Verif.Explore.C227_two_lists_partial"
   ],
   "note": "False: the row of a list has as many entries as configurations times the product of the lengths of the later lists (exact count for all lengths); equal to the number of configurations iff all lists but the first have one element. Two lists of 1000 values: 1.001e9 entries for 1e6 configurations."
  },
  {
   "property": "C228",
   "status": "partial",
   "theorems": [
    "Verif.Monitor.C228_pictures_partial",
    "Verif.Monitor.C228_kept_partial",
    "Verif.Monitor.C228_later_repetitions_partial",
    "Verif.Monitor.C228_names_stay_partial",
    "Verif.Monitor.C228_lost_partial",
    "Verif.Monitor.C228_emptied_partial",
    "Verif.Monitor.C228_logs_partial"
   ],
   "note": "False: the folder has the date of the first use (a lazy static) and the list of plots is never emptied, so a later call replaces the csv file of every plot of the earlier ones for each repetition it comes to, with just the header if its model does not have the plot (proved for all calls, witness). Proved: the files of other plots and of later repetitions stay; the log file has the logs of all calls. Two plots of one name with different labels are in C235. C228_pictures_partial: the pictures of plots are replaced only by pictures of plots that the later model stores itself."
  },
  {
   "property": "C229",
   "status": "partial",
   "theorems": [
    "Verif.CsvText.C229_numbers_partial",
    "Verif.CsvText.C229_reading_partial",
    "Verif.CsvText.C229_texts_partial",
    "Verif.CsvText.C229_distinct_partial",
    "Verif.CsvText.C229_literal_partial",
    "Verif.CsvText.C229_header_partial",
    "Verif.CsvText.C229_file_partial"
   ],
   "note": "False: the rows are written with {:?}, so each individual is in quotes and with escapes; read as a String it is another text for every individual whatsoever. Proved: the other columns are read as they were; integers of every width exactly when the type has them; different individuals are written differently, so nothing is lost. The text of an f32 and the quoting of the csv crate are trusted. C229_reading_partial: exactly which texts are read as numbers. C229_literal_partial: what is written for a text is a Rust literal for it."
  },
  {
   "property": "C230",
   "status": "partial",
   "theorems": [
    "Verif.Exchange.C230_meaning_partial",
    "Verif.Exchange.C230_ends_partial",
    "Verif.Exchange.C230_early_negation_partial",
    "Verif.Exchange.C230_lucky_partial"
   ],
   "note": "False: a process that comes first starts a ready send without a receive, which MPI calls erroneous (proved for every process with a neighbour). Proved: there is an order of the calls without such a send until the end, so it is a matter of timing; and if the library treats the send as an ordinary one, every order of the calls ends with all neighbours served, after exactly three turns per neighbour. C230_meaning_partial: what an early send is, spelled out."
  },
  {
   "property": "C231",
   "status": "partial",
   "theorems": [
    "Verif.KdTree.C231_same_agents_partial",
    "Verif.KdTree.C231_one_process_partial",
    "Verif.KdTree.C231_self_negation_partial",
    "Verif.KdTree.C231_same_point_negation_partial"
   ],
   "note": "False: the distributed search leaves out the agents exactly at the place asked for, so an agent does not see itself (C231_self_negation_partial), nor others at its point (C231_same_point_negation_partial). The searches differ in nothing else (C85). Proved for rules that do not depend on what is at their place: one process (C231_one_process_partial) and the numbers of processes of C225 under its conditions (C231_same_agents_partial)."
  },
  {
   "property": "C232",
   "status": "partial",
   "theorems": [
    "Verif.Monitor.C232_own_tab_partial",
    "Verif.Monitor.C232_home_negation_partial"
   ],
   "note": "False for a plot called Home: the name is already taken by the first page, so it gets no tab and no key shows its chart (C232_home_negation_partial, after all events). Proved for all other names, after all events (C232_own_tab_partial)."
  },
  {
   "property": "C233",
   "status": "partial",
   "theorems": [
    "Verif.Driver.C233_stops_partial",
    "Verif.Driver.C233_key_partial",
    "Verif.Driver.C233_prefix_partial",
    "Verif.Driver.C233_results_partial",
    "Verif.Driver.C233_only_user_partial",
    "Verif.Driver.C233_log_negation_partial",
    "Verif.Driver.C233_no_key_partial"
   ],
   "note": "The log is wrong: a repetition that ends by end_condition tells the terminal to close, and the next message, which then fails, is logged as an interruption by the user, with no key pressed; and q during a repetition is logged twice (C233_log_negation_partial). Proved for all models and interleavings: nothing is run after the first failed message and every step is followed by a message (C233_stops_partial); what was simulated is the run without terminal up to there, and all of it if nothing was logged (C233_prefix_partial); results are stored for every repetition begun (C233_results_partial); if end_condition never holds, only the user causes the message (C233_only_user_partial); q makes every later message fail (C233_key_partial); without keys the model is that of C87 (C233_no_key_partial)."
  },
  {
   "property": "C234",
   "status": "partial",
   "theorems": [
    "Verif.Monitor.C234_repetition_partial",
    "Verif.Monitor.C234_added_before_negation_partial",
    "Verif.Monitor.C234_piles_up_negation_partial",
    "Verif.Monitor.C234_witness_negation_partial"
   ],
   "note": "False in two ways. With the terminal every repetition empties the plots first, so one added before simulate! is gone and what is plotted to it is lost (C234_added_before_negation_partial, for all calls), while its csv file is still made. Without the terminal nothing empties them, and the points of all repetitions are in the same series (C234_piles_up_negation_partial, for all calls). Proved for plots added in a repetition with the terminal (C234_repetition_partial)."
  },
  {
   "property": "C235",
   "status": "partial",
   "theorems": [
    "Verif.Monitor.C235_bytes_partial",
    "Verif.Monitor.C235_same_length_partial",
    "Verif.Monitor.C235_rows_partial",
    "Verif.Monitor.C235_longer_first_partial",
    "Verif.Monitor.C235_shorter_first_negation_partial",
    "Verif.Monitor.C235_order_negation_partial"
   ],
   "note": "False: plots whose names differ only in / and -, or a plot that is added again with other labels in a later repetition or call (the plots are cleared, the set of names is not), have one file, and each of them writes the rows of all from its own place on. Proved for all plots and repetitions: every character is that of the last write there (C235_bytes_partial); a plot with its own file has header and points, which is the file of C70 written out (C235_rows_partial), and so have plots with headers of one length together (C235_same_length_partial). With the longer header first a piece of the last line comes twice (C235_longer_first_partial); with the shorter header first the rows run into each other and the file has two lines for any number of points (C235_shorter_first_negation_partial); which one it is depends on the order of a hash set (C235_order_negation_partial). Points plotted in init are those of C70."
  },
  {
   "property": "C236",
   "status": "partial",
   "theorems": [
    "Verif.NetworkSeed.C236_draws_partial",
    "Verif.NetworkSeed.C236_sequential_partial",
    "Verif.NetworkSeed.C236_parallel_partial",
    "Verif.NetworkSeed.C236_across_partial",
    "Verif.NetworkSeed.C236_directed_negation_partial",
    "Verif.NetworkSeed.C236_short_negation_partial",
    "Verif.NetworkSeed.C236_add_prob_edge_negation_partial"
   ],
   "note": "False of the parallel network: if it is directed, the second node of the node set keeps showing the edges it had (C236_directed_negation_partial); and add_prob_edge with a seed draws from the nodes in the order of a hash function that each process draws anew (C236_add_prob_edge_negation_partial). With a node set of fewer than two nodes nothing is published, so the old edges stay shown (C236_short_negation_partial). Proved: the draws depend on generator, seed, node set and number of edges only, and the seeded call is the call of C51, C124 and C212 with that drawing function (C236_draws_partial); without the feature two networks with the same ids show the same lists afterwards, for every generator and whatever was there before (C236_sequential_partial); with it so do any two networks made by any histories with any processors and hash functions, of all nodes but the second one of directed networks, which shows exactly what it showed before (C236_parallel_partial); and the two implementations give the same lists (C236_across_partial)."
  },
  {
   "property": "C237",
   "status": "partial",
   "theorems": [
    "Verif.Improvement.C237_formula_partial",
    "Verif.Improvement.C237_no_variance_partial",
    "Verif.Improvement.C237_choice_partial",
    "Verif.Improvement.C237_new_point_partial",
    "Verif.Improvement.C237_prefers_partial",
    "Verif.Improvement.C237_undominated_partial",
    "Verif.Improvement.C237_sure_negation_partial",
    "Verif.Improvement.C237_no_number_partial"
   ],
   "note": "On real numbers (nothing is rounded), with the predictions of the process as parameters. Proved: where the variance is positive the formula is the integral of max (y - best) 0 over the normal distribution with predicted mean and variance, best being the largest predicted mean of the points evaluated, and it is positive (C237_formula_partial); without variance the score is 0, which is the expected improvement exactly if the mean is at most the best (C237_no_variance_partial). If that is so of all samples without variance and no variance is negative, the first sample with the highest expected improvement is chosen (C237_choice_partial), and never one without variance while another has some (C237_new_point_partial). False otherwise: a sample that is better for sure gets the score 0 and a worse one is taken (C237_sure_negation_partial), and samples with a negative variance (the root is not a number) have no score; if all are such, the first is taken whatever it is (C237_no_number_partial). Beyond the choice: more predicted mean and more predicted variance both raise the expected improvement (C237_prefers_partial), so the chosen sample is not dominated by another one (C237_undominated_partial)."
  },
  {
   "property": "C238",
   "status": "partial",
   "theorems": [
    "Verif.Chance.C238_dense_number_partial",
    "Verif.Chance.C238_dense_object_partial",
    "Verif.Chance.C238_field_partial",
    "Verif.Chance.C238_sparse_number_partial",
    "Verif.Chance.C238_sparse_object_partial",
    "Verif.Chance.C238_sparse_object_parallel_partial",
    "Verif.Chance.C238_emptied_negation_partial"
   ],
   "note": "False under the feature parallel: a cell of the sparse object grid whose bag lost its objects shows no objects but is never returned (C238_emptied_negation_partial, C238_sparse_object_parallel_partial). Proved for the dense grids, the field, and the sparse grids otherwise; the uniformity of the generator (and, on the sparse grids, the independence of its draws) is a hypothesis expressed by counting the draws."
  },
  {
   "property": "C239",
   "status": "partial",
   "theorems": [
    "Verif.DBDashMap.C239_single_keys_partial",
    "Verif.DBDashMap.C239_len_growing_partial",
    "Verif.DBDashMap.C239_len_shrinking_partial",
    "Verif.DBDashMap.C239_is_empty_one_way_partial",
    "Verif.DBDashMap.C239_w_keys_each_partial",
    "Verif.DBDashMap.C239_clear_each_partial",
    "Verif.DBDashMap.C239_apply_each_partial",
    "Verif.DBDashMap.C239_clear_shrinking_partial",
    "Verif.DBDashMap.C239_is_empty_negation_partial",
    "Verif.DBDashMap.C239_w_keys_negation_partial",
    "Verif.DBDashMap.C239_clear_negation_partial",
    "Verif.DBDashMap.C239_alone_partial"
   ],
   "note": "False of the calls that lock shard after shard: is_empty says true of a map that is never empty (C239_is_empty_negation_partial), w_keys has a later key and misses an earlier one (C239_w_keys_negation_partial), clear spares an earlier key and removes a later one (C239_clear_negation_partial). Proved: insert, remove and get_write are single steps; len and is_empty are right at some moment when the others only add (or change) or only remove (or change) entries; w_keys, clear and apply_to_all_values_write are right key by key whatever the others do; with no other threads all are the calls of C15. The parallel schedule keeps the state locked during an agent's step, so this concerns threads started by the user."
  },
  {
   "property": "C240",
   "status": "proved",
   "theorems": [
    "Verif.KdTree.C240_sizes",
    "Verif.KdTree.C240_balance",
    "Verif.KdTree.C240_power_of_two",
    "Verif.KdTree.C240_shape"
   ],
   "note": "Full statement, exact rationals for f32, positive field sizes, two or more processes. How many blocks have which size is also shown (C240_sizes)."
  },
  {
   "property": "C241",
   "status": "partial",
   "theorems": [
    "Verif.Field2D.C241_relaxed_partial",
    "Verif.Field2D.C241_exact_partial",
    "Verif.Field2D.C241_exact_negation_partial",
    "Verif.Field2D.C241_border_negation_partial"
   ],
   "note": "True of the search by cells for objects off the upper borders, in plain and toroidal fields. False of both searches for an object on an upper border and of the exact search in general: the test of the corners is made for the cell of the object found only (witness). If one of two objects finds the other exactly, it is found by the other if and only if a corner of its own cell is within the distance of the other. Exact rationals for f32; on a torus the exact search is treated for distances below half the sizes less a cell."
  },
  {
   "property": "C242",
   "status": "partial",
   "theorems": [
    "Verif.Torus.C242_metric_partial",
    "Verif.Torus.C242_homogeneous_partial",
    "Verif.Torus.C242_diameter_partial",
    "Verif.Single.C242_single_symmetric_partial",
    "Verif.Single.C242_single_triangle_partial",
    "Verif.Single.C242_single_negation_partial"
   ],
   "note": "The whole statement on exact values (square root of the exact sum of squares). In single precision symmetry holds, the triangle inequality holds along one axis of a torus up to twelve rounding errors, and is false without them (witness); two different positions can be at distance 0, the squares being too small (witness)."
  },
  {
   "property": "C243",
   "status": "partial",
   "theorems": [
    "Verif.Network.C243_degrees_partial",
    "Verif.Network.C243_directed_partial",
    "Verif.Network.C243_parallel_negation_partial",
    "Verif.Network.C243_loops_negation_partial",
    "Verif.Network.C243_again_negation_partial"
   ],
   "note": "True of every history of a directed network in which each node is added once, and of those of an undirected one in which edges are removed between nodes with a single edge. False otherwise: with two parallel edges (or two loops) one remove_edge that answers one edge takes both from the other end (witnesses), and adding a node again hides its edges (witness)."
  },
  {
   "property": "C244",
   "status": "partial",
   "theorems": [
    "Verif.Field2D.C244_relaxed_partial",
    "Verif.Field2D.C244_exact_partial",
    "Verif.Field2D.C244_square_negation_partial",
    "Verif.Field2D.C244_seam_negation_partial",
    "Verif.Field2D.C244_cut_negation_partial"
   ],
   "note": "True of the search by cells for vectors of whole squares that keep the position and the objects inside the field and off its upper borders, and of the exact search if moreover the sides are multiples of the discretization (on a torus for small distances). False otherwise (witnesses): half a square is enough to lose a neighbour, across the seam of a torus neighbours are lost, and in a last square cut by the border the exact search finds what it does not find in a whole one."
  },
  {
   "property": "C245",
   "status": "partial",
   "theorems": [
    "Verif.Schedule.C245_retime_partial",
    "Verif.Schedule.C245_later_partial",
    "Verif.Schedule.C245_orderings_partial",
    "Verif.Schedule.C245_single_negation_partial",
    "Verif.Schedule.C245_whole_partial"
   ],
   "note": "Proved at exact times (moving all times by any amount, for hooks that do not read the clock, and renumbering orderings, for all models). False of the single precision times of the code: moved 16777216 units the clock of a repeating agent stands still and an agent two units later never runs (witness). In single precision (the times of the code) it holds for whole times that stay below 16777216 with the delay and the steps made (C245_whole_partial)."
  },
  {
   "property": "C246",
   "status": "proved",
   "theorems": [
    "Verif.Schedule.C246_order_of_scheduling",
    "Verif.Schedule.C246_distinct_orderings",
    "Verif.Schedule.C246_ties_show"
   ],
   "note": "Proved of the sequential schedule for hooks that do not look at the schedule and make no call but schedule_repeating; the condition on ties is needed (witness with two agents of the same time and ordering)."
  },
  {
   "property": "C247",
   "status": "partial",
   "theorems": [
    "Verif.Field2D.C247_exact_partial",
    "Verif.Single.C247_powers_of_two_partial",
    "Verif.Single.C247_ten_negation_partial",
    "Verif.Single.C247_small_negation_partial"
   ],
   "note": "Proved at exact numbers for every factor, and in single precision for every factor 2^k and lengths that are multiples of 2^-50 (values that overflow are not modelled). False of the code otherwise: in a unit of one tenth an object on the edge of the search distance is lost although all numbers are exact, and in a field of size 2^-79 squares of distances vanish and everything is near."
  },
  {
   "property": "C248",
   "status": "partial",
   "theorems": [
    "Verif.DenseObject.C248_dense_partial",
    "Verif.DenseObject.C248_dense_negation_partial",
    "Verif.Field2D.C248_field_partial",
    "Verif.Field2D.C248_field_negation_partial",
    "Verif.SparseObject.C248_sparse_partial",
    "Verif.SparseObject.C248_sparse_negation_partial"
   ],
   "note": "Proved for DenseGrid2D, SparseGrid2D and Field2D and every history whose closures, if any, are applied to the read or to the write state (with the closure keeping objects in or out of the set). False of the code for apply_to_all_values with READWRITE on both grids: whether a published object is written again depends on the other objects of its cell (witnesses). Empty bags and the density estimate count all objects by nature (witness)."
  },
  {
   "property": "C249",
   "status": "partial",
   "theorems": [
    "Verif.DenseObject.C249_dense_partial",
    "Verif.DenseObject.C249_dense_negation_partial",
    "Verif.Field2D.C249_field_partial",
    "Verif.Field2D.C249_field_negation_partial",
    "Verif.SparseObject.C249_sparse_partial",
    "Verif.SparseObject.C249_sparse_negation_partial"
   ],
   "note": "Proved for DenseGrid2D, SparseGrid2D (from new) and Field2D (from new, including the density estimate), for every history whose closures are applied to the read or to the write state. False of the code for apply_to_all_values with READWRITE on the grids: on the sparse grid only the last placed object of a cell survives, on the dense grid of the objects the closure makes equal the first placed one (witnesses). The location get_location reports for an object in several cells of a sparse grid depends on the order in the map; only whether there is one is claimed."
  },
  {
   "property": "C250",
   "status": "partial",
   "theorems": [
    "Verif.Field2D.C250_field_partial",
    "Verif.Field2D.C250_field_negation_partial",
    "Verif.DenseNumber.C250_dense_number_partial",
    "Verif.DenseNumber.C250_dense_number_negation_partial",
    "Verif.SparseNumber.C250_sparse_number_partial",
    "Verif.DenseObject.C250_dense_object_partial",
    "Verif.DenseObject.C250_dense_object_negation_partial",
    "Verif.SparseObject.C250_sparse_object_partial"
   ],
   "note": "Proved for the four sequential grids (values, objects, unwritten ones, empty cells up to order) and for the exact Field2D (positions, objects, both neighbour searches and empty cells up to order), for programs without apply_to_all_values, on the dense structures inside the grid or field, on the dense object grid without update. False outside: columns are stored one after the other, so a place above the structure is a cell of the next column while its mirror image panics (witnesses); get_location always takes the first column (witness). The parallel variants and machine floats: C260."
  },
  {
   "property": "C251",
   "status": "proved",
   "theorems": [
    "Verif.Field2D.C251_field",
    "Verif.DenseObject.C251_dense",
    "Verif.DenseObject.C251_confused",
    "Verif.SparseObject.C251_sparse",
    "Verif.Schedule.C251_schedule"
   ],
   "note": "Sequential DenseGrid2D, SparseGrid2D (maps walked in insertion order), Field2D with exact numbers, Schedule::step (sequential). The renaming must respect ==: neither equate different objects nor separate equal ones; C251_confused computes a confusing renaming that the dense grid notices. For the schedule no condition on the renaming is needed, since agents are told apart by ids alone."
  },
  {
   "property": "C252",
   "status": "proved",
   "theorems": [
    "Verif.Popup.C252_centred",
    "Verif.Popup.C252_panics",
    "Verif.Popup.C252_popup"
   ],
   "note": "The layout routine of tui is a parameter; assumed of it: percentages that add up to 100 give every piece but the last its share and starting point, rounded down (ByShares). centered_rect asks for (100-p)/2, p, (100-p)/2, which add up to 99 for odd p: then nothing is claimed (the code uses 60 and 20). The products percentage * length must fit in 16 bits (655 cells). Styles and wrapping of the text are not modelled."
  },
  {
   "property": "C253",
   "status": "proved",
   "theorems": [
    "Verif.Network.C253_history",
    "Verif.Network.C253_attachment",
    "Verif.Network.C253_confused"
   ],
   "note": "Sequential Network; the hash maps of both runs are walked in the order of insertion (the same order for corresponding keys). Labels and weights may be changed by any map, so no call looks at them; C253_confused computes a renaming that confuses two nodes and is noticed."
  },
  {
   "property": "C254",
   "status": "proved",
   "theorems": [
    "Verif.HNetwork.C254_history",
    "Verif.HNetwork.C254_confused"
   ],
   "note": "Sequential HNetwork; the maps are walked in the order of insertion. C254_confused computes a renaming that confuses two nodes and is noticed."
  },
  {
   "property": "C255",
   "status": "proved",
   "theorems": [
    "Verif.HNetwork.C255_sum",
    "Verif.HNetwork.C255_enumeration",
    "Verif.HNetwork.C255_repeated"
   ],
   "note": "C255_sum speaks of any list with each hyperedge once (Enumerates) and C255_enumeration shows that there is one. C255_repeated computes that a node named twice in add_edge breaks the sum, so the condition is needed."
  },
  {
   "property": "C256",
   "status": "proved",
   "theorems": [
    "Verif.Machine.C256_names",
    "Verif.Machine.C256_others",
    "Verif.Machine.C256_order",
    "Verif.Machine.C256_same"
   ],
   "note": "No hypothesis on the numbers: rnd and root are any functions. Other objects and order: if the original program does not panic, neither does the other one. C256_same computes that the order of calls about the same object matters. The functions of field_2d.rs are modelled over f32 with NaN and infinities (Model/MachineField)."
  },
  {
   "property": "C257",
   "status": "partial",
   "theorems": [
    "Verif.ParGrid.C257_number_grids_partial",
    "Verif.ParGrid.C257_object_grids_partial",
    "Verif.ParGrid.C257_merged_negation_partial",
    "Verif.ParField2D.C257_fields_partial",
    "Verif.ParNetwork.C257_networks_partial",
    "Verif.ParNetwork.C257_attachment_partial",
    "Verif.ParNetwork.C257_order_negation_partial"
   ],
   "note": "Proved for number grids (C257_number_grids_partial), object grids whose closures keep identities (C257_object_grids_partial), fields (C257_fields_partial), networks (C257_networks_partial) and preferential attachment (C257_attachment_partial). False without the condition on closures: if apply_to_all_values gives two objects the same identity, the hash function decides which of them stays (C257_merged_negation_partial). False of the order of the edges that remove_incoming_edges returns (C257_order_negation_partial), and false of add_prob_edge, which draws in the order of the hashes (C236_add_prob_edge_negation_partial). Numbers of processors with more than 2^64 shards are excluded."
  },
  {
   "property": "C258",
   "status": "partial",
   "theorems": [
    "Verif.ParGrid.C258_number_grids_partial",
    "Verif.ParGrid.C258_object_grids_partial",
    "Verif.ParGrid.C258_no_panic_partial",
    "Verif.ParGrid.C258_grid_negation_partial",
    "Verif.ParField2D.C258_fields_partial",
    "Verif.ParField2D.C258_field_negation_partial"
   ],
   "note": "Proved of number grids whatever the program (C258_number_grids_partial), of the places of objects on grids and in fields whatever the program, and of the bags and neighbours if the program never calls update (C258_object_grids_partial, C258_fields_partial), for closures that keep identities. Without remove_object neither program panics (C258_no_panic_partial). False of the bags if the program publishes with update: an object placed in a cell hides the objects published there before; false of panics: remove_object panics unless another object was placed in the same cell since the last publication (C258_grid_negation_partial); the search of a field without objects panics (C258_field_negation_partial). Calls are executed one at a time."
  },
  {
   "property": "C259",
   "status": "partial",
   "theorems": [
    "Verif.ParGrid.C259_object_grids_partial",
    "Verif.ParGrid.C259_no_panic_partial",
    "Verif.ParGrid.C259_grid_negation_partial",
    "Verif.ParField2D.C259_fields_partial"
   ],
   "note": "Proved of object grids if neither order panics (C259_object_grids_partial), which is the case without remove_object (C259_no_panic_partial), and of fields (C259_fields_partial), update and lazy_update and closures that keep identities included. False of panics: remove_object of one object panics unless another one was placed in its cell before (C259_grid_negation_partial). Calls are executed one at a time; concurrent placements that overlap are the subject of C107 and C114."
  },
  {
   "property": "C260",
   "status": "proved",
   "theorems": [
    "Verif.ParMachine.C260_machine_parallel",
    "Verif.Machine.C260_machine",
    "Verif.ParGrid.C260_number_grids",
    "Verif.ParGrid.C260_object_grids",
    "Verif.ParField2D.C260_fields"
   ],
   "note": "C260_number_grids, C260_object_grids (closures that keep identities), C260_fields (exact numbers), C260_machine_parallel (f32, all values), C260_machine (f32 without the feature). Outside the field the axes differ without the feature (C250_field_negation_partial). The bird of the flockers example and agents that act on the answers are not covered."
  },
  {
   "property": "C261",
   "status": "partial",
   "theorems": [
    "Verif.GeneticRuns.C261_computer_partial",
    "Verif.GeneticRuns.C261_distributed_partial",
    "Verif.GeneticRuns.C261_runs_partial",
    "Verif.GeneticRuns.C261_same_partial",
    "Verif.GeneticRuns.C261_saved_partial",
    "Verif.GeneticRuns.C261_cloud_partial",
    "Verif.GeneticRuns.C261_cloud_negation_partial",
    "Verif.GeneticRuns.C261_cloud_repeats_partial"
   ],
   "note": "Proved for the sequential and the parallel search (every row), for the rows of a distributed generation, that fresh runs exist and are unique, that equal individuals have equal fitness in all rows and searches, and for the state column. False for the cloud: the fitness function gets a single run whatever `reps` is (C261_cloud_partial), so the fitness differs from that of the other modes (C261_cloud_negation_partial), and the repetitions of an individual all have the same fitness (C261_cloud_repeats_partial)."
  },
  {
   "property": "C262",
   "status": "proved",
   "theorems": [
    "Verif.Genetic.C262_computer",
    "Verif.Genetic.C262_last",
    "Verif.Genetic.C262_distributed"
   ],
   "note": "C262_computer (sequential and parallel), C262_last (the reported best), C262_distributed (under the conditions of C63). The hypothesis on the fitness holds for simulations without randomness outside of the state by C261."
  },
  {
   "property": "C263",
   "status": "partial",
   "theorems": [
    "Verif.Machine.C263_relaxed_partial",
    "Verif.Machine.C263_exact_partial",
    "Verif.ParMachine.C263_parallel_relaxed_partial",
    "Verif.ParMachine.C263_parallel_exact_partial",
    "Verif.Machine.C263_exact_negation_partial",
    "Verif.Machine.C263_border_negation_partial"
   ],
   "note": "C241 for machine floats. Proved for the search by cells with and without the feature parallel, if both objects lie in one cell each that the searches visit and the numbers of cells are below 2^30; for the exact search if check_circle says the same of both cells. False of the exact search otherwise (C263_exact_negation_partial), and of both for positions inside the field whose cell the rounding puts beyond the last one (C263_border_negation_partial: width 6.9, cells of 2.3)."
  },
  {
   "property": "C264",
   "status": "partial",
   "theorems": [
    "Verif.MachineSchedule.C264_names_partial",
    "Verif.MachineSchedule.C264_retime_partial",
    "Verif.MachineSchedule.C264_orderings_partial",
    "Verif.MachineSchedule.C264_order_of_scheduling_partial",
    "Verif.MachineSchedule.C264_distinct_orderings_partial",
    "Verif.MachineSchedule.C264_nan_negation_partial"
   ],
   "note": "C245, C246 and C251 for machine floats. Names and orderings: for all times, NaN included (C264_names_partial, C264_orderings_partial, C264_retime_partial). The order of scheduling: without NaN, infinite times allowed (C264_order_of_scheduling_partial, C264_distinct_orderings_partial). False with NaN: three agents with orderings of their own, one at NaN; in one order of scheduling one of them runs in the first step, in another all three (C264_nan_negation_partial)."
  },
  {
   "property": "C265",
   "status": "partial",
   "theorems": [
    "Verif.Network.C265_parts_partial",
    "Verif.Network.C265_panic_negation_partial",
    "Verif.Network.C265_removal_negation_partial",
    "Verif.Network.C265_again_negation_partial",
    "Verif.ParNetwork.C265_parallel_partial",
    "Verif.ParNetwork.C265_parallel_removal_negation_partial"
   ],
   "note": "Proved for histories in which nodes are added once each and not removed and nothing panics (C265_parts_partial): the part alone does not panic either and shows the same edges, objects and nodes. False otherwise: after remove_all_edges, removing the edges of a node panics at a node of the other part that has no list (C265_panic_negation_partial); after a node of the other part was removed, or added twice, a new node of this part gets the id of a node of the other part and shows its edges (C265_removal_negation_partial, C265_again_negation_partial). Under the feature parallel it is proved (C265_parallel_partial) for histories in which nodes are added once each and not removed, lists are not cleared and edges are removed only between published nodes; nothing panics then. With removed nodes it is false there as well (C265_parallel_removal_negation_partial)."
  },
  {
   "property": "C266",
   "status": "partial",
   "theorems": [
    "Verif.MachineSchedule.C266_machine_partial",
    "Verif.MachineSchedule.C266_machine_together_partial",
    "Verif.MachineSchedule.C266_nan_negation_partial",
    "Verif.Schedule.C266_parallel_partial",
    "Verif.Schedule.C266_parallel_workers_negation_partial",
    "Verif.Schedule.C266_parallel_exit_negation_partial",
    "Verif.Schedule.C266_watchers_partial",
    "Verif.Schedule.C266_together_partial",
    "Verif.Schedule.C266_ahead_negation_partial",
    "Verif.Schedule.C266_ties_negation_partial"
   ],
   "note": "Proved if no two of the other agents share time and ordering and no watcher is due before all others (C266_watchers_partial, which also gives the clock); watchers may tie with anything. Holds for any number of steps if all agents start at the same time, the others have orderings of their own and the hooks make no calls (C266_together_partial). False otherwise: with a watcher at half times the agents run in every other step only (C266_ahead_negation_partial); a watcher on the heap can turn round the order of two agents that tie (C266_ties_negation_partial). The trace of observations is not compared, what the state records is. With the times of the code, infinities included, both results hold if nothing is scheduled at NaN (C266_machine_partial, C266_machine_together_partial); a watcher at NaN, which is not ahead of anybody, makes agents run before they are due (C266_nan_negation_partial). Under the feature parallel, whatever the simulation with watchers can come to the simulation without them can come to with enough workers, whatever times and orderings are, as long as other agents are pending (C266_parallel_partial); with a given number of workers it is false (C266_parallel_workers_negation_partial), since a watcher more deals the agents to other workers, and when only watchers are left the process without them exits (C266_parallel_exit_negation_partial)."
  },
  {
   "property": "C267",
   "status": "partial",
   "theorems": [
    "Verif.Field2D.C267_exact_partial",
    "Verif.Machine.C267_machine_partial",
    "Verif.ParMachine.C267_parallel_partial",
    "Verif.ParMachine.C267_negative_negation_partial",
    "Verif.Machine.C267_overflow_negation_partial",
    "Verif.KdTree.C267_distributed_partial"
   ],
   "note": "Proved with exact arithmetic (C267_exact_partial). Proved with machine floats for every rounding that is monotone and odd, in both builds, if the larger search does not panic in a debug build (C267_machine_partial), and under the feature parallel for distances that are not negative (C267_parallel_partial). The objects found are a sublist, so order and repetitions agree. False of a release build once the window of the larger search overflows: it finds nothing (C267_overflow_negation_partial). False of negative distances under the feature parallel: the capacity is computed from the square and panics (C267_negative_negation_partial). Both searches of the distributed field are covered with exact arithmetic (C267_distributed_partial)."
  },
  {
   "property": "C268",
   "status": "partial",
   "theorems": [
    "Verif.HNetwork.C268_parts_partial",
    "Verif.HNetwork.C268_no_panic_partial",
    "Verif.HNetwork.C268_removal_negation_partial",
    "Verif.HNetwork.C268_twice_negation_partial"
   ],
   "note": "Proved for histories in which nodes are added once each and not removed: if the history does not panic then neither do the calls about the part alone, and they show the same hyperedges, in the same order, and the same objects (C268_parts_partial); and the history does not panic if the calls about each part alone do not (C268_no_panic_partial), other than for Network (C265). False otherwise: after a node of the other part was removed, or a node was added twice, a node added later gets the id of a node of this part and replaces its object (C268_removal_negation_partial, C268_twice_negation_partial)."
  },
  {
   "property": "C269",
   "status": "partial",
   "theorems": [
    "Verif.ParGrid.C269_parallel_partial",
    "Verif.ParGrid.C269_parallel_negation_partial",
    "Verif.C269_dense_partial",
    "Verif.C269_sparse_partial",
    "Verif.C269_field_partial",
    "Verif.C269_machine_partial",
    "Verif.C269_distributed_partial",
    "Verif.C269_schedule_partial",
    "Verif.C269_network_partial",
    "Verif.C269_hypernetwork_partial",
    "Verif.C269_placed_negation_partial",
    "Verif.C269_distributed_negation_partial",
    "Verif.C269_schedule_negation_partial",
    "Verif.C269_network_negation_partial",
    "Verif.C269_hypernetwork_negation_partial"
   ],
   "note": "Proved: of schedules in which no pending agent has the next id (C269_schedule_partial; the id is used up), of both object grids and the continuous field, also with machine floats in debug and release builds, if the object is not in the bag yet (C269_dense_partial, C269_sparse_partial, C269_field_partial, C269_machine_partial), of the distributed field away from other processes (C269_distributed_partial), of edges between published nodes without an edge between them (C269_network_partial), and of hyperedges that add_edge reports as added between nodes with lists (C269_hypernetwork_partial). False otherwise: an object placed twice is removed altogether (C269_placed_negation_partial); in the distributed field an agent near another process is still sent there (C269_distributed_negation_partial); schedule_once with the next id makes dequeue remove that agent (C269_schedule_negation_partial); of two edges between the same nodes the older one is removed, and a node that is not published is not removed again (C269_network_negation_partial); after remove_all_edges empty lists are left where there were none (C269_hypernetwork_negation_partial). The states are compared with each other, except that maps are compared by what is found under each key. Under the feature parallel it is proved of object grids for the two calls remove_object_location and remove_object together, if the object is neither published nor written and there is a written bag (C269_parallel_partial); either call alone does not suffice, and without a written bag an empty one is left that hides the published bag after the next update (C269_parallel_negation_partial). The continuous field has no removal there."
  },
  {
   "property": "C270",
   "status": "partial",
   "theorems": [
    "Verif.Network.C270_ends_partial",
    "Verif.Network.C270_answers_partial",
    "Verif.Network.C270_two_edges_negation_partial",
    "Verif.ParNetwork.C270_parallel_partial",
    "Verif.ParNetwork.C270_parallel_negation_partial"
   ],
   "note": "Proved for all programs in which an edge is removed with its ends swapped only while there is at most one edge between the two nodes (C270_ends_partial; the answers of the calls: C270_answers_partial); under the feature parallel if moreover nodes are added once each and not removed, lists are not cleared and edges are removed between published nodes (C270_parallel_partial). False with two edges between the same nodes: remove_edge(u, v) takes one edge from the list of u and all from the list of v (C270_two_edges_negation_partial, C270_parallel_negation_partial)."
  },
  {
   "property": "C271",
   "status": "partial",
   "theorems": [
    "Verif.OnlyOrder.C271_sequential_partial",
    "Verif.OnlyOrder.C271_parallel_partial",
    "Verif.OnlyOrder.C271_random_partial",
    "Verif.OnlyOrder.C271_random_negation_partial",
    "Verif.OnlyOrder.C271_bayesian_partial",
    "Verif.OnlyOrder.C271_distributed_partial",
    "Verif.OnlyOrder.C271_cloud_partial",
    "Verif.OnlyOrder.C271_distributed_negation_partial",
    "Verif.OnlyOrder.C271_cloud_negation_partial",
    "Verif.OnlyOrder.C271_bayesian_negation_partial"
   ],
   "note": "Proved of the sequential and the parallel genetic search without restriction (C271_sequential_partial, C271_parallel_partial); of the distributed one for changes that leave the fitness 1000 alone (C271_distributed_partial), of the cloud one for changes that leave 0 alone and messages whose order of arrival does not depend on the fitnesses (C271_cloud_partial), of the random search for changes that leave f32::MAX alone (C271_random_partial), of the bayesian search for changes that leave f64::MIN alone and processes that score samples as before (C271_bayesian_partial). False otherwise: a changed fitness of 1000 makes the distributed search panic (C271_distributed_negation_partial), with negative fitnesses the cloud search reports no individual (C271_cloud_negation_partial), the random search does not accept a cost that is infinite (C271_random_negation_partial), and a process that looks at the values leads the bayesian search elsewhere (C271_bayesian_negation_partial). Rounding of the changed values is not modelled: the change is any function that keeps comparisons."
  },
  {
   "property": "C272",
   "status": "partial",
   "theorems": [
    "Verif.Repeated.C272_dense_number_partial",
    "Verif.Repeated.C272_sparse_number_partial",
    "Verif.Repeated.C272_dense_object_partial",
    "Verif.Repeated.C272_sparse_object_partial",
    "Verif.Repeated.C272_field_partial",
    "Verif.Repeated.C272_machine_partial",
    "Verif.Repeated.C272_map_partial",
    "Verif.Repeated.C272_schedule_partial",
    "Verif.Repeated.C272_network_partial",
    "Verif.Repeated.C272_remove_edge_partial",
    "Verif.Repeated.C272_hypernetwork_partial",
    "Verif.Repeated.C272_number_publication_negation_partial",
    "Verif.Repeated.C272_object_publication_negation_partial",
    "Verif.Repeated.C272_placed_negation_partial",
    "Verif.Repeated.C272_map_negation_partial",
    "Verif.Repeated.C272_schedule_negation_partial",
    "Verif.Repeated.C272_network_negation_partial",
    "Verif.Repeated.C272_edges_negation_partial",
    "Verif.Repeated.C272_hypernetwork_negation_partial",
    "Verif.Repeated.C272_parallel_publication_partial",
    "Verif.Repeated.C272_parallel_number_partial",
    "Verif.Repeated.C272_parallel_object_partial",
    "Verif.Repeated.C272_parallel_network_partial",
    "Verif.Repeated.C272_parallel_negation_partial"
   ],
   "note": "Proved for writing and removing values on number grids (C272_dense_number_partial, C272_sparse_number_partial), placing and removing objects on the dense object grid (C272_dense_object_partial), removing objects on the sparse one and in the continuous field, with exact numbers and machine floats, where the count of agents is not reduced twice (C272_sparse_object_partial, C272_field_partial, C272_machine_partial), inserting, removing and clearing in the map of two sides (C272_map_partial), dequeuing (C272_schedule_partial), the publications, removing all edges, replacing and removing nodes of a network (C272_network_partial), and every call but the adding of nodes on a hypernetwork after any history (C272_hypernetwork_partial). False otherwise: publishing a grid, field or map again shows nothing (C272_number_publication_negation_partial, C272_object_publication_negation_partial, C272_map_negation_partial), objects are placed twice on the sparse grid and in the field (C272_placed_negation_partial), agents scheduled twice (C272_schedule_negation_partial), nodes get another id, edges of networks are added or removed twice (C272_network_negation_partial, C272_hypernetwork_negation_partial). Removing an edge of a network may be repeated if there is one such edge (C272_remove_edge_partial); remove_incoming_edges and remove_outgoing_edges remove one of several edges to the same node at a time, so that repeating them removes more (C272_edges_negation_partial). Under the feature parallel it is proved of publishing with update (C272_parallel_publication_partial), of writing values (C272_parallel_number_partial), of placing and removing objects on object grids (C272_parallel_object_partial) and of publishing and removing all edges of a network (C272_parallel_network_partial); it is false of lazy_update and of placing an object in a continuous field (C272_parallel_negation_partial). This is unlike the grids without that feature, on which update may not be repeated and objects are placed twice on the sparse grid."
  },
  {
   "property": "C273",
   "status": "partial",
   "theorems": [
    "Verif.Sync.C273_field_partial",
    "Verif.Sync.C273_parallel_field_partial",
    "Verif.Sync.C273_dense_grid_partial",
    "Verif.Sync.C273_sparse_grid_partial",
    "Verif.Sync.C273_parallel_grid_partial",
    "Verif.Sync.C273_torus_negation_partial",
    "Verif.Sync.C273_dense_cells_partial",
    "Verif.Sync.C273_sparse_cells_partial",
    "Verif.Sync.C273_parallel_cells_partial"
   ],
   "note": "Proved for the dense and the sparse object grid and, under the feature parallel, for all interleavings (C273_dense_grid_partial, C273_sparse_grid_partial, C273_parallel_grid_partial), and for the continuous field with and without parallel, on a torus or not (C273_field_partial, C273_parallel_field_partial). In a field whose torus is not more than about twice as large as the reach, agents see up to three quarters of a cell further than they ask for; with the reach alone the claim is false there (C273_torus_negation_partial) and with the three quarters of a cell it holds. Agents whose rule draws random numbers are not covered: the draws of one agent depend on how many agents were served before. Births are not covered. Also proved for cellular automata on both number grids and under the feature parallel (C273_dense_cells_partial, C273_sparse_cells_partial, C273_parallel_cells_partial)."
  },
  {
   "property": "C274",
   "status": "proved",
   "theorems": [
    "Verif.Sync.C274_network",
    "Verif.Sync.C274_parallel_network",
    "Verif.Sync.C274_hypernetwork",
    "Verif.Sync.C274_parallel_hypernetwork"
   ],
   "note": "Networks, directed or not, without and with the feature parallel (C274_network, C274_parallel_network), hypernetworks (C274_hypernetwork, C274_parallel_hypernetwork). Shown of the networks a program builds with add_node, add_edge and update; the rule of the agents draws no random numbers and keeps the identities of the nodes; the order in which a hash set yields the members of a hyperedge is any, but the same in both simulations."
  },
  {
   "property": "C275",
   "status": "partial",
   "theorems": [
    "Verif.Sync.C275_dense_grid_partial",
    "Verif.Sync.C275_sparse_grid_partial",
    "Verif.Sync.C275_parallel_grid_partial",
    "Verif.Sync.C275_mirrored_field_partial",
    "Verif.Sync.C275_mirrored_parallel_field_partial",
    "Verif.Sync.C275_rescaled_field_partial",
    "Verif.Sync.C275_shifted_field_negation_partial",
    "Verif.Sync.C275_dense_cells_partial",
    "Verif.Sync.C275_sparse_cells_partial",
    "Verif.Sync.C275_parallel_cells_partial"
   ],
   "note": "Proved for every way to move the cells of the dense and the sparse object grid and, under the feature parallel, for all interleavings (C275_dense_grid_partial, C275_sparse_grid_partial, C275_parallel_grid_partial), for continuous fields with the axes exchanged, with and without parallel (C275_mirrored_field_partial, C275_mirrored_parallel_field_partial), and for continuous fields in another unit of length (C275_rescaled_field_partial). False of continuous fields that are shifted by a part of a square: a pair of agents that see each other no longer do (C275_shifted_field_negation_partial). Agents whose rule draws random numbers are not covered, since the order of the draws is not fixed. Cellular automata on number grids, whose values may be translated as well, go through the moved steps and show the moved values (C275_dense_cells_partial, C275_sparse_cells_partial, C275_parallel_cells_partial)."
  },
  {
   "property": "C276",
   "status": "proved",
   "theorems": [
    "Verif.Sync.C276_network",
    "Verif.Sync.C276_parallel_network",
    "Verif.Sync.C276_hypernetwork",
    "Verif.Sync.C276_parallel_hypernetwork"
   ],
   "note": "Proved for networks, directed or not, and for hypernetworks, with and without the feature parallel (C276_network, C276_parallel_network, C276_hypernetwork, C276_parallel_hypernetwork). The edges of the second network are those of the first under the other numbers, in any order; C270 adds that the ends of an undirected edge may be exchanged. Rules that draw random numbers are not covered, since the draws of an agent depend on the order of service."
  },
  {
   "property": "C277",
   "status": "proved",
   "theorems": [
    "Verif.Field2D.C277_searches",
    "Verif.Sync.C277_simulation",
    "Verif.Sync.C277_parallel_simulation",
    "Verif.Sync.C277_dense_grid",
    "Verif.Sync.C277_sparse_grid",
    "Verif.Sync.C277_parallel_grid",
    "Verif.Sync.C277_across_the_border"
   ],
   "note": "C277_searches (both searches, any two fields with the same discretization), C277_simulation and C277_parallel_simulation (whole simulations, with and without the feature parallel), C277_dense_grid, C277_sparse_grid and C277_parallel_grid. The squares that the border cuts off are tested with other corners in the other field, but these corners are outside every circle that does not touch the border. C277_across_the_border shows that the circle must be inside: a search that reaches over the border of a torus finds an object that the same search in the plane does not find. Exact numbers instead of f32; rules that draw random numbers are not covered, since the draws of an agent depend on the order of service."
  },
  {
   "property": "C278",
   "status": "partial",
   "theorems": [
    "Verif.Explore.C278_values_partial",
    "Verif.Explore.C278_order_partial",
    "Verif.Explore.C278_matched_partial",
    "Verif.Explore.C278_processes_partial",
    "Verif.Explore.C278_distributed_partial",
    "Verif.Explore.C278_repetitions_partial",
    "Verif.Explore.C278_sequential_repetitions_partial",
    "Verif.Explore.C278_repetitions_negation_partial",
    "Verif.Explore.C278_empty_negation_partial"
   ],
   "note": "Proved of explore_sequential! and explore_parallel! for values of a parameter divided into two parts that are not empty (C278_values_partial), values listed in another order (C278_order_partial) and matched lists cut at the same place (C278_matched_partial), and of explore_parallel! for repetitions (C278_repetitions_partial). False of repetitions of explore_sequential! (C278_repetitions_negation_partial): a repetition starts from the state in which the one before ended; true if a simulation leaves nothing behind for the next (C278_sequential_repetitions_partial). False of empty parts, which panic (C278_empty_negation_partial). Proved of explore_distributed_mpi! for divided values, each part with any number of processes (C278_distributed_partial), and that the number of processes does not change the outcomes (C278_processes_partial). A model with a generator of its own, seeded by its parameters or fixed, is covered as any other; models that draw from a shared generator are not."
  },
  {
   "property": "C279",
   "status": "partial",
   "theorems": [
    "Verif.Schedule.C279_two_models_partial",
    "Verif.Schedule.C279_together_partial",
    "Verif.Schedule.C279_times_negation_partial",
    "Verif.Schedule.C279_ties_negation_partial",
    "Verif.Schedule.C279_parallel_partial"
   ],
   "note": "Proved of agents of which no two of one model share time and ordering, if in no step the agents of one model are all due later than an agent of the other (C279_two_models_partial); for agents that are all scheduled for one time by a plan, and hooks that make no calls, the latter follows (C279_together_partial). Agents of different models may tie. False of models whose agents run at different times (C279_times_negation_partial): a step goes to the next time at which anything is pending, so each model slows down the other. False of agents of one model that tie (C279_ties_negation_partial). Under the feature parallel, whatever two models on one schedule can come to each can come to alone with enough workers, whatever times and orderings are, as long as both have agents pending (C279_parallel_partial)."
  },
  {
   "property": "C280",
   "status": "partial",
   "theorems": [
    "Verif.Genetic.C280_genetic_partial",
    "Verif.Genetic.C280_genetic_parallel_partial",
    "Verif.Genetic.C280_panic_negation_partial",
    "Verif.GeneticAws.C280_genetic_cloud_partial",
    "Verif.GeneticMpi.C280_genetic_mpi_partial",
    "Verif.Search.C280_random_partial",
    "Verif.Search.C280_bayesian_partial",
    "Verif.Driver.C280_simulation_partial",
    "Verif.Driver.C280_first_repetition_partial",
    "Verif.Driver.C280_fresh_repetitions_partial",
    "Verif.Driver.C280_repetitions_negation_partial"
   ],
   "note": "Proved of the sequential, parallel, distributed and cloud genetic searches that finish with both limits (C280_genetic_partial, C280_genetic_parallel_partial, C280_genetic_mpi_partial without the best, C280_genetic_cloud_partial with the best if some fitness is positive), of the random search (C280_random_partial), the bayesian search (C280_bayesian_partial) and of simulations: of a single repetition (C280_simulation_partial), the first of several (C280_first_repetition_partial) and all if init makes the state anew (C280_fresh_repetitions_partial). False of later repetitions otherwise (C280_repetitions_negation_partial), since they start where the one before ended. False of a longer search that panics (C280_panic_negation_partial)."
  },
  {
   "property": "C281",
   "status": "proved",
   "theorems": [
    "Verif.Explore.C281_fixed",
    "Verif.Explore.C281_fixed_matched",
    "Verif.Explore.C281_order",
    "Verif.Explore.C281_order_matched"
   ],
   "note": "All three explorations: a fixed parameter (C281_fixed, C281_fixed_matched) gives equal rows; exchanged neighbours give a permutation of the outcomes (C281_order) or, matched, equal rows (C281_order_matched). Any other order of the parameters is made of such exchanges. A model is called with its parameters as a list; models that draw from a shared random generator are not covered."
  },
  {
   "property": "C282",
   "status": "proved",
   "theorems": [
    "Verif.Explore.C282_more_values",
    "Verif.Explore.C282_matched",
    "Verif.Explore.C282_not_all"
   ],
   "note": "All three explorations: more values (C282_more_values) and matched against exhaustive (C282_matched); the converse is false (C282_not_all). explore_distributed_mpi! with no repetitions panics (C61) and is left out. The numbers of the configurations are not part of an outcome. Models that draw from a shared random generator are not covered."
  },
  {
   "property": "C283",
   "status": "partial",
   "theorems": [
    "Verif.Schedule.C283_later_partial",
    "Verif.Schedule.C283_ties_negation_partial",
    "Verif.Schedule.C283_jump_negation_partial",
    "Verif.Schedule.C283_parallel_negation_partial"
   ],
   "note": "Proved of the sequential schedule (C283_later_partial) if no two of the other agents share time and ordering and the hooks do not look at the schedule. False of agents that share time and ordering (C283_ties_negation_partial): which of them runs first depends on the heap, and so on what else is on it. When nothing else is pending the clock jumps to the late agents (C283_jump_negation_partial), so the number of steps before their time is not fixed. False under the feature parallel (C283_parallel_negation_partial): a parallel step runs all pending agents, whatever their times (see C13)."
  },
  {
   "property": "C284",
   "status": "proved",
   "theorems": [
    "Verif.Schedule.C284_sequential",
    "Verif.Schedule.C284_parallel",
    "Verif.Schedule.C284_orderings_decide",
    "Verif.Schedule.C284_parallel_times_decide"
   ],
   "note": "Sequential schedule: C284_sequential, for agents that may share time and ordering. Under the feature parallel: C284_parallel. Both conditions are needed: C284_orderings_decide has agents that may not be exchanged, C284_parallel_times_decide has agents due at different times, which a parallel step runs all the same. A turn is atomic under the feature parallel: the worker holds the lock of the state throughout (src/engine/schedule.rs:187-211)."
  }
 ]
}