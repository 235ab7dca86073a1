{
 "claims": [
  {
   "property": "C01",
   "status": "proved",
   "theorems": [
    "GC.C01_history_refines_set_semantics",
    "GC.C01_apply_commands",
    "GC.C01_apply_commands_built"
   ],
   "note": ""
  },
  {
   "property": "C02",
   "status": "proved",
   "theorems": [
    "GC.C02_listings_exact",
    "GC.C02_edges_closed",
    "GC.C02_counts"
   ],
   "note": ""
  },
  {
   "property": "C03",
   "status": "proved",
   "theorems": [
    "GC.C03_neighbours_exact",
    "GC.C03_edge_reverse",
    "GC.C03_degrees_exact",
    "GC.C03_absent_vertex"
   ],
   "note": ""
  },
  {
   "property": "C04",
   "status": "partial",
   "theorems": [
    "GC.C04_edge_count_formula",
    "GC.C04_edge_count_partial",
    "GC.C04_counterexample"
   ],
   "note": "False as stated because of self-loops (C04_counterexample); exact formula and loop-free case proved."
  },
  {
   "property": "C05",
   "status": "proved",
   "theorems": [
    "GC.C05_return_values",
    "GC.C05_unchanged"
   ],
   "note": ""
  },
  {
   "property": "C06",
   "status": "proved",
   "theorems": [
    "GC.C06_commands_idempotent"
   ],
   "note": ""
  },
  {
   "property": "C07",
   "status": "proved",
   "theorems": [
    "GC.C07_as_commands_rebuilds"
   ],
   "note": ""
  },
  {
   "property": "C08",
   "status": "partial",
   "theorems": [
    "GC.C08_revert_involutive",
    "GC.C08_revert_undoes_partial",
    "GC.C08_counterexample"
   ],
   "note": "Involution proved; undo characterised exactly; false for RemoveVertex with incident edges and AddEdge creating endpoints (C08_counterexample)."
  },
  {
   "property": "C09",
   "status": "proved",
   "theorems": [
    "GC.C09_gcmd_round_trip"
   ],
   "note": ""
  },
  {
   "property": "C10",
   "status": "proved",
   "theorems": [
    "GC.C10_tgf_round_trip"
   ],
   "note": ""
  },
  {
   "property": "C11",
   "status": "proved",
   "theorems": [
    "GC.C11_line_round_trip",
    "GC.C11_lines_injective",
    "GC.C11_accepts_exactly_the_grammar"
   ],
   "note": ""
  },
  {
   "property": "C12",
   "status": "proved",
   "theorems": [
    "GC.C12_line_splitting",
    "GC.C12_reads_active_lines_in_order",
    "GC.C12_error_locates_first_bad_line",
    "GC.C12_bad_line_is_reported",
    "GC.C12_tgf_reads_active_lines_in_order",
    "GC.C12_tgf_error_locates_first_bad_line",
    "GC.C12_tgf_bad_line_is_reported"
   ],
   "note": "Both formats: gcmd and TGF (C12_tgf_*)."
  },
  {
   "property": "C13",
   "status": "partial",
   "theorems": [
    "GC.C13_panics_exactly_partial",
    "GC.C13_own_files_do_not_panic_partial",
    "GC.C13_counterexample",
    "GC.C13_tgf_panics_exactly_partial"
   ],
   "note": "False as stated (C13_counterexample: ids >= 2^64 and non-ASCII digits panic). Proved: the exact set of files that panic, for both formats."
  },
  {
   "property": "C14",
   "status": "proved",
   "theorems": [
    "GC.C14_append_extends",
    "GC.C14_append_applies",
    "GC.C14_saved_files_terminated",
    "GC.C14_newline_needed"
   ],
   "note": ""
  },
  {
   "property": "C15",
   "status": "partial",
   "theorems": [
    "GC.C15_crash_outcomes_partial",
    "GC.C15_crash_at_line_boundary_partial",
    "GC.C15_counterexample"
   ],
   "note": "False as stated (C15_counterexample: a torn line can name another vertex or make the file unreadable). Proved: the complete list of outcomes for every crash point."
  },
  {
   "property": "C16",
   "status": "partial",
   "theorems": [
    "GC.C16_vertex_label_ignored_partial",
    "GC.C16_edge_label_ignored",
    "GC.C16_no_id_is_error",
    "GC.C16_vertex_label_exact",
    "GC.C16_counterexample",
    "GC.C16_accepts_exactly",
    "GC.C16_one_meaning",
    "GC.C16_graph_of_file"
   ],
   "note": "False as stated (C16_counterexample: a vertex label beginning with a digit turns the line into an edge). Proved for all other labels, and for all edge labels; C16_vertex_label_exact says for exactly which labels the line is read as that vertex. C16_accepts_exactly: the grammar of TGF lines; C16_graph_of_file: the graph of a whole file."
  },
  {
   "property": "C17",
   "status": "partial",
   "theorems": [
    "GC.C17_build_preserves_partial",
    "GC.C17_build_fails_safely",
    "GC.C17_crash_outcomes_partial",
    "GC.C17_counterexample"
   ],
   "note": "Graph preservation proved; crash safety is false (C17_counterexample: truncation loses the graph). Proved: the complete list of crash outcomes."
  },
  {
   "property": "C18",
   "status": "proved",
   "theorems": [
    "GC.C18_path_queries",
    "GC.C18_edge_list",
    "GC.C18_append"
   ],
   "note": ""
  },
  {
   "property": "C19",
   "status": "proved",
   "theorems": [
    "GC.C19_check_complete_meaning"
   ],
   "note": ""
  },
  {
   "property": "C20",
   "status": "proved",
   "theorems": [
    "GC.C20_never_prunes_solutions",
    "GC.C20_prefix_check_weaker",
    "GC.C20_check_meaning",
    "GC.C20_prunes_exactly",
    "GC.C20_keeps_more"
   ],
   "note": "C20_prunes_exactly: for the constraints that can be given on the command line (C23_options_are_simple) a path is rejected exactly when no longer path satisfies the constraint. C20_check_meaning says what a partial check answers."
  },
  {
   "property": "C21",
   "status": "proved",
   "theorems": [
    "GC.C21_ordered_vertices",
    "GC.C21_ordered_vertices_nodup"
   ],
   "note": ""
  },
  {
   "property": "C22",
   "status": "partial",
   "theorems": [
    "GC.C22_validate_accepts_iff",
    "GC.C22_rejections_justified_partial",
    "GC.C22_error_describes",
    "GC.C22_counterexample"
   ],
   "note": "False as stated: the validator rejects lists that say nothing about cycles (C22_counterexample). Proved: exactly which lists are accepted, and that every rejection of the listed kinds is justified. The returned error describes a contradiction that is in the list (C22_error_describes)."
  },
  {
   "property": "C23",
   "status": "partial",
   "theorems": [
    "GC.C23_csp_accepts",
    "GC.C23_options_are_simple",
    "GC.C23_csp_options_partial",
    "GC.C23_cycle_accepts",
    "GC.C23_cycle_options_partial",
    "GC.C23_max_score_partial",
    "GC.C23_counterexample"
   ],
   "note": "False as stated: --max-score is turned into a second minimum score (C23_counterexample). Proved: all other options mean what the help text says, and what all options together ask for in fact (C23_csp_accepts, C23_cycle_accepts)."
  },
  {
   "property": "C24",
   "status": "proved",
   "theorems": [
    "GC.C24_dfs_exact",
    "GC.C24_dfs_take",
    "GC.C24_dfs_iter"
   ],
   "note": ""
  },
  {
   "property": "C25",
   "status": "proved",
   "theorems": [
    "GC.C25_bfs_exact",
    "GC.C25_distances_exist",
    "GC.C25_bfs_iter",
    "GC.C25_level_order"
   ],
   "note": ""
  },
  {
   "property": "C26",
   "status": "partial",
   "theorems": [
    "GC.C26_counterexample",
    "GC.C26_dfs_order_partial",
    "GC.C26_search_order_partial",
    "GC.C26_preorder_partial"
   ],
   "note": "False as stated (C26_counterexample). Proved: exact depth-first order on out-trees, a search order (each vertex after one of its in-neighbours) on all graphs, and the exact order produced on every graph (C26_preorder_partial): the preorder of the tree in which each vertex owns the out-neighbours it is first to find."
  },
  {
   "property": "C27",
   "status": "proved",
   "theorems": [
    "GC.C27_dfs_paths",
    "GC.C27_order"
   ],
   "note": ""
  },
  {
   "property": "C28",
   "status": "proved",
   "theorems": [
    "GC.C28_bfs_paths",
    "GC.C28_order"
   ],
   "note": ""
  },
  {
   "property": "C29",
   "status": "proved",
   "theorems": [
    "GC.C29_best_first"
   ],
   "note": ""
  },
  {
   "property": "C30",
   "status": "proved",
   "theorems": [
    "GC.C30_stack_lifo",
    "GC.C30_stack_bag",
    "GC.C30_queue_fifo",
    "GC.C30_min_priority",
    "GC.C30_max_priority",
    "GC.StdHeap.C30_std_heap",
    "GC.StdHeap.C30_std_heap_is_lawful"
   ],
   "note": "C30_std_heap: the array algorithm of std's BinaryHeap meets the laws assumed of every heap."
  },
  {
   "property": "C31",
   "status": "proved",
   "theorems": [
    "GC.C31_stream_sound",
    "GC.C31_stream_sorted",
    "GC.C31_stream_complete",
    "GC.C31_stream_fair",
    "GC.C31_stream_progress"
   ],
   "note": ""
  },
  {
   "property": "C32",
   "status": "proved",
   "theorems": [
    "GC.C32_shortest_path_exists",
    "GC.C32_same_start_end"
   ],
   "note": ""
  },
  {
   "property": "C33",
   "status": "proved",
   "theorems": [
    "GC.C33_short_path_optimal"
   ],
   "note": ""
  },
  {
   "property": "C34",
   "status": "partial",
   "theorems": [
    "GC.C34_counterexample",
    "GC.C34_uniform_cost_partial",
    "GC.C34_counterexample_heuristic",
    "GC.C34_bound_partial",
    "GC.C34_target_cost_partial",
    "GC.C34_ratio_partial",
    "GC.C34_vertex_cost_partial"
   ],
   "note": "False in general: C34_counterexample (edge costs), C34_counterexample_heuristic (unit costs, consistent heuristic). Proved for costs whose reduction by the heuristic depends only on the target vertex (C34_target_cost_partial), e.g. vertex costs. For all other costs C34_bound_partial and C34_ratio_partial bound how much more expensive the answer may be: with weights between lo and hi at most hi/lo times. C124 says exactly which path is returned."
  },
  {
   "property": "C35",
   "status": "proved",
   "theorems": [
    "GC.C35_constrained_valid"
   ],
   "note": ""
  },
  {
   "property": "C36",
   "status": "proved",
   "theorems": [
    "GC.C36_constrained_optimal"
   ],
   "note": ""
  },
  {
   "property": "C37",
   "status": "partial",
   "theorems": [
    "GC.C37_finds_solution_partial",
    "GC.C37_terminates_partial",
    "GC.C37_bounded_constraints_partial",
    "GC.C37_not_reachable_iff",
    "GC.C37_counterexample_general",
    "GC.C37_counterexample"
   ],
   "note": "A solution is always found when one exists; 'not reachable' is answered when MaxLength, MaxScore or Not ContainsCycle bounds the search; otherwise the search for a missing solution never ends (C37_counterexample, general form C37_counterexample_general). C37_not_reachable_iff says exactly when a missing solution is reported, for any constraints."
  },
  {
   "property": "C38",
   "status": "partial",
   "theorems": [
    "GC.C38_order_partial",
    "GC.C38_order_any_graph",
    "GC.C38_counterexample"
   ],
   "note": "Proved for graphs without self-loops; exact shape of the result for every graph in C38_order_any_graph. False with a single self-loop: C38_counterexample."
  },
  {
   "property": "C39",
   "status": "partial",
   "theorems": [
    "GC.C39_acyclic_succeeds",
    "GC.C39_exact",
    "GC.C39_succeeds_iff_acyclic_partial",
    "GC.C39_is_dag_try_dag",
    "GC.C39_counterexample",
    "GC.C39_unique_order",
    "GC.C39_chain",
    "GC.C39_ring"
   ],
   "note": "Exact success condition proved for every graph in C39_exact. The claim itself holds without self-loops and is false with a single dead-end self-loop: C39_counterexample. If the vertices form a chain the order is that chain (C39_unique_order, C39_chain), and a ring has none (C39_ring)."
  },
  {
   "property": "C40",
   "status": "proved",
   "theorems": [
    "GC.C40_dag_shortest_paths",
    "GC.C40_dag_shortest_path"
   ],
   "note": ""
  },
  {
   "property": "C41",
   "status": "partial",
   "theorems": [
    "GC.C41_panics_iff",
    "GC.C41_returns_partial",
    "GC.C41_counterexample"
   ],
   "note": "False: C41_counterexample shows that it panics or not depending on the hash iteration order. C41_panics_iff gives the exact panic condition, C41_returns_partial the case where it returns."
  },
  {
   "property": "C42",
   "status": "proved",
   "theorems": [
    "GC.C42_dag_longest_paths",
    "GC.C42_dag_longest_path",
    "GC.C42_panics_iff",
    "GC.C42_returns",
    "GC.C42_min_weight_panics"
   ],
   "note": ""
  },
  {
   "property": "C43",
   "status": "proved",
   "theorems": [
    "GC.C43_bellman_ford_exact",
    "GC.C43_bellman_ford_returns",
    "GC.C43_max_weight_is_lost"
   ],
   "note": "C43_max_weight_is_lost shows why weights summing to exactly i64::MAX are excluded."
  },
  {
   "property": "C44",
   "status": "proved",
   "theorems": [
    "GC.C44_none_iff_negative_cycle",
    "GC.C44_returns"
   ],
   "note": ""
  },
  {
   "property": "C45",
   "status": "proved",
   "theorems": [
    "GC.C45_spfa_returns_iff",
    "GC.C45_spfa_negative_cycle"
   ],
   "note": "With overflow checks (debug build) a reachable negative cycle ends in a panic: C45_spfa_negative_cycle."
  },
  {
   "property": "C46",
   "status": "proved",
   "theorems": [
    "GC.C46_bellman_ford_spfa",
    "GC.C46_dag_bellman_ford_spfa",
    "GC.C46_unit_weights_short_path"
   ],
   "note": ""
  },
  {
   "property": "C47",
   "status": "proved",
   "theorems": [
    "GC.C47_hamiltonian_paths",
    "GC.C47_first_path",
    "GC.C47_is_hamiltonian",
    "GC.C47_is_path_hamiltonian"
   ],
   "note": ""
  },
  {
   "property": "C48",
   "status": "proved",
   "theorems": [
    "GC.C48_cycle_iter_sound"
   ],
   "note": ""
  },
  {
   "property": "C49",
   "status": "partial",
   "theorems": [
    "GC.C49_exact",
    "GC.C49_complete_partial",
    "GC.C49_counterexample",
    "GC.C49_counterexample_order"
   ],
   "note": "Exactly the cycles reachable from the start vertices are enumerated (C49_exact); complete if every vertex is reachable from a root or the graph is strongly connected. False in general: two counterexamples (missed cycle; result depends on hash order)."
  },
  {
   "property": "C50",
   "status": "proved",
   "theorems": [
    "GC.C50_first_count_take",
    "GC.C50_girth",
    "GC.C50_shortest",
    "GC.C50_longest",
    "GC.C50_girth_of_graph"
   ],
   "note": ""
  },
  {
   "property": "C51",
   "status": "proved",
   "theorems": [
    "GC.C51_hamiltonian_cycle"
   ],
   "note": ""
  },
  {
   "property": "C52",
   "status": "proved",
   "theorems": [
    "GC.C52_canonical",
    "GC.C52_equal_iff_rotation",
    "GC.C52_is_canonical",
    "GC.C52_from_vertices"
   ],
   "note": ""
  },
  {
   "property": "C53",
   "status": "partial",
   "theorems": [
    "GC.C53_options_partial",
    "GC.C53_selected_partial",
    "GC.C53_format_injective",
    "GC.C53_counterexample",
    "GC.C53_girth_hamiltonian",
    "GC.C53_odd_edge_values_ignored"
   ],
   "note": "False when an option names the closing edge of a cycle (C53_counterexample) and for max-score (C23). Everything else is proved for all actions."
  },
  {
   "property": "C54",
   "status": "proved",
   "theorems": [
    "GC.C54_feasible"
   ],
   "note": ""
  },
  {
   "property": "C55",
   "status": "partial",
   "theorems": [
    "GC.C55_blocking_partial",
    "GC.C55_single_entry_partial",
    "GC.C55_single_exit_partial",
    "GC.C55_zero_partial",
    "GC.C55_ratio_partial",
    "GC.C55_counterexample",
    "GC.C55_maximum_iff_partial",
    "GC.C55_unbounded_counterexample"
   ],
   "note": "False (C55_counterexample): backward edges are never followed. Proved: the flow is blocking and bounded by every cut, it is 0 iff the maximum is 0, it is maximum when inner vertices have at most one incoming (or at most one outgoing) edge or the graph has at most three vertices, and the maximum is at most half the number of vertices times the reported value. C55_maximum_iff_partial says exactly when the value is right: when the returned flow cannot be rerouted, and when it is the capacity of a cut. C55_unbounded_counterexample: for every k there is a network of 6k+2 vertices where 1 is reported and a flow of value k exists, so no constant factor bounds the error."
  },
  {
   "property": "C56",
   "status": "partial",
   "theorems": [
    "GC.C56_terminates",
    "GC.C56_returns_partial",
    "GC.C56_panics_partial",
    "GC.C56_counterexample_same",
    "GC.C56_counterexample_overflow"
   ],
   "note": "Always ends; returns when start and end differ and a cut has capacity below 2^64. Panics when start = end, and on overflow of the total (debug build): only if some flow has a value of 2^64 or more, and always if some flow has a value above (2^64-1) * (number of vertices / 2) (C56_panics_partial)."
  },
  {
   "property": "C57",
   "status": "proved",
   "theorems": [
    "GC.C57_chain",
    "GC.C57_chain_empty",
    "GC.C57_cycle",
    "GC.C57_star",
    "GC.C57_clique",
    "GC.C57_reverse",
    "GC.C57_gc_add_effect"
   ],
   "note": ""
  },
  {
   "property": "C58",
   "status": "proved",
   "theorems": [
    "GC.C58_id_list",
    "GC.C58_edge_list",
    "GC.C58_pairs",
    "GC.C58_confirmation"
   ],
   "note": ""
  },
  {
   "property": "C59",
   "status": "partial",
   "theorems": [
    "GC.C59_dropped_exactly_when_invalid_partial",
    "GC.C59_counterexample",
    "GC.C59_csp_counterexample",
    "GC.C59_cycle_counterexample"
   ],
   "note": "False as stated: invalid options are dropped instead of refused. C59_csp_counterexample and C59_cycle_counterexample: every run is the same as without the invalid options. Proved: exactly when an option is dropped."
  },
  {
   "property": "C60",
   "status": "partial",
   "theorems": [
    "GC.Random.C60_dag",
    "GC.Random.C60_edge_count",
    "GC.Random.C60_exact",
    "GC.Random.C60_vertex_count_partial",
    "GC.Random.C60_terminates_partial",
    "GC.Random.C60_never_stuck_partial",
    "GC.Random.C60_counterexample_vertices",
    "GC.Random.C60_counterexample_termination",
    "GC.Random.C60_command",
    "GC.Random.C60_command_refused"
   ],
   "note": "Acyclicity and the edge count hold for all random numbers. The requested vertex count and termination fail: counterexamples. Termination is characterised exactly. C60_exact: exactly which graph is generated from the random numbers."
  },
  {
   "property": "C61",
   "status": "partial",
   "theorems": [
    "GC.Concurrent.C61_counterexample",
    "GC.Concurrent.C61_counterexample_never_waits",
    "GC.Concurrent.C61_lock_visible_partial",
    "GC.Concurrent.C61_counterexample_released"
   ],
   "note": "False of the code: lock() creates the file without O_EXCL and never looks at it. Proved: any number of processes can be inside at once and none ever waits; the lock file is present while nobody returned."
  },
  {
   "property": "C62",
   "status": "proved",
   "theorems": [
    "GC.C62_lock_released",
    "GC.C62_no_lock_no_block",
    "GC.C62_lost_lock"
   ],
   "note": ""
  },
  {
   "property": "C63",
   "status": "partial",
   "theorems": [
    "GC.Concurrent.C63_alone",
    "GC.Concurrent.C63_interleaving",
    "GC.Concurrent.C63_serial_partial",
    "GC.Concurrent.C63_loaded_partial",
    "GC.Concurrent.C63_counterexample"
   ],
   "note": "Proved for every schedule: each batch reaches the file completely and in order (any size); batches up to 8192 bytes (the BufWriter capacity) are stored whole in some serial order, so loading gives the serial result. False for longer batches: the counterexample makes the graph unreadable. Each write call on a file opened with O_APPEND is taken as atomic."
  },
  {
   "property": "C64",
   "status": "partial",
   "theorems": [
    "GC.C64_init",
    "GC.C64_init_idempotent",
    "GC.C64_init_new_graph_empty",
    "GC.C64_clean",
    "GC.C64_clean_not_confirmed",
    "GC.C64_init_after_clean",
    "GC.C64_counterexample"
   ],
   "note": "Proved except that a user's file called 'lock' is deleted (C64_counterexample)."
  },
  {
   "property": "C65",
   "status": "partial",
   "theorems": [
    "GC.C65_delete_exit_code",
    "GC.C65_add_exit_code",
    "GC.C65_counterexample",
    "GC.C65_add_stores_partial"
   ],
   "note": "False as stated (C65_counterexample: success without an initialised graph). Proved: the exact condition for a normal exit of gc-add and gc-delete, and that commands are stored if the graph is initialised."
  },
  {
   "property": "C66",
   "status": "proved",
   "theorems": [
    "GC.C66_vertex_lookup",
    "GC.C66_edge_lookup",
    "GC.C66_defaults",
    "GC.C66_reports",
    "GC.C66_empty_mappings"
   ],
   "note": ""
  },
  {
   "property": "C67",
   "status": "partial",
   "theorems": [
    "GC.C67_printed_partial",
    "GC.C67_printed_exact",
    "GC.C67_desc_partial",
    "GC.C67_needs_graph",
    "GC.C67_edges_exact",
    "GC.C67_counterexample"
   ],
   "note": "False for the edge count of graphs with self-loops (C67_counterexample). Proved otherwise; C67_edges_exact and C67_printed_exact give the printed count for every graph."
  },
  {
   "property": "C68",
   "status": "partial",
   "theorems": [
    "GC.C68_failed_add_partial",
    "GC.C68_failed_delete_partial",
    "GC.C68_single_option_atomic_partial",
    "GC.C68_counterexample"
   ],
   "note": "False across options (C68_counterexample). Proved: a failing gc-add leaves the state of a gc-add with the options before the first invalid one, a failing gc-delete removed the given vertices or nothing; each single option is atomic."
  },
  {
   "property": "C69",
   "status": "proved",
   "theorems": [
    "GC.C69_gc_delete_effect"
   ],
   "note": ""
  },
  {
   "property": "C70",
   "status": "partial",
   "theorems": [
    "GC.Concurrent.C70_counterexample",
    "GC.Concurrent.C70_undisturbed_partial",
    "GC.Concurrent.C70_exact_partial"
   ],
   "note": "False of the code: gc-build takes no lock, an addition between its load and its truncation is lost. Proved when, from the end of its load on, the steps of gc-build are next to each other (additions may run before and while it reads). C70_exact_partial says for every schedule which additions are stored and which are lost: those written between the last read of gc-build and its truncation are gone, those written until its last write are overwritten from the front."
  },
  {
   "property": "C71",
   "status": "partial",
   "theorems": [
    "GC.C71_prints_order",
    "GC.C71_not_a_dag_partial",
    "GC.C71_exact",
    "GC.C71_nothing_stored",
    "GC.C71_counterexample"
   ],
   "note": "Proved for acyclic graphs, and for all graphs without self-loops; false with self-loops: a witness is given where an order is printed and one vertex is missing. C71_exact: what is printed for every stored graph."
  },
  {
   "property": "C72",
   "status": "proved",
   "theorems": [
    "GC.C72_short_path_report",
    "GC.C72_text_determines_path",
    "GC.C72_rejects"
   ],
   "note": "From the argument strings and the command file to the printed text. The graph must have less than 2^63 vertices."
  },
  {
   "property": "C73",
   "status": "partial",
   "theorems": [
    "GC.Main.C73_text",
    "GC.C73_ends_iff_walks",
    "GC.C73_ends_iff",
    "GC.C73_never_answers_iff",
    "GC.C73_exact",
    "GC.C73_report_partial",
    "GC.C73_finds",
    "GC.C73_finds_partial",
    "GC.C73_bounded_ends_partial",
    "GC.C73_rejects",
    "GC.C73_counterexample",
    "GC.C73_counterexample_max_score"
   ],
   "note": "C73_text: the whole text, the requirements being announced as Spec/Announce.lean describes from the options alone. C73_exact, C73_finds: what is printed with any options, max-score being one more minimum. Without max-score: what is printed is right, and the program ends if there is a solution or the options bound the walks. Counterexamples: it never ends on a graph with a cycle if nothing is found, and max-score is taken as a lower bound. C73_ends_iff, C73_never_answers_iff: if nothing is found, it answers exactly if the options bound the walks, or no walk allowed by exclude and ordered can go round the same closed walk twice."
  },
  {
   "property": "C74",
   "status": "partial",
   "theorems": [
    "GC.Main.C74_report",
    "GC.C74_hamiltonian",
    "GC.C74_all_cycles_partial",
    "GC.C74_exact",
    "GC.C74_acyclic",
    "GC.C74_counterexample"
   ],
   "note": "--hamiltonian is right for every graph. --all and --count are right for graphs reachable from their roots, strongly connected and acyclic ones; counterexample: the count depends on the iteration order. C74_exact characterises the printed cycles of every graph. C74_report: what is printed for each action with any constraint options, on every graph."
  },
  {
   "property": "C75",
   "status": "proved",
   "theorems": [
    "GC.C75_session",
    "GC.C75_session_from_fresh",
    "GC.C75_history_unique",
    "GC.C75_stored_unique"
   ],
   "note": "Sessions over the modelled binaries, from a usable directory (no graph, or a readable command file whose last line is complete); crash-free and sequential (crashes: C15, C17; concurrency: C61, C63, C70). gc-random enters with the graph it generated (C60)."
  },
  {
   "property": "C76",
   "status": "proved",
   "theorems": [
    "GC.C76_neutral"
   ],
   "note": "For points of the session at which a graph is stored; without a graph gc-build fails and gc-init creates one (part of C75)."
  },
  {
   "property": "C77",
   "status": "proved",
   "theorems": [
    "GC.C77_adds_commute",
    "GC.C77_add_idempotent",
    "GC.C77_delete_undoes_edges"
   ],
   "note": "Undoing restores the edges; the end vertices stay, as the theorem states."
  },
  {
   "property": "C78",
   "status": "proved",
   "theorems": [
    "GC.Concurrent.C78_alone",
    "GC.Concurrent.C78_consistent",
    "GC.Concurrent.C78_monotone",
    "GC.Concurrent.C78_answers"
   ],
   "note": "Proved for every schedule; each read and each append is taken as atomic, files are ASCII (what the commands write is: C99_torn_writes)."
  },
  {
   "property": "C79",
   "status": "proved",
   "theorems": [
    "GC.Concurrent.C79_prefix",
    "GC.Concurrent.C79_answers"
   ],
   "note": "Proved for every schedule; system calls are atomic, so crashes that cut a single write are C15."
  },
  {
   "property": "C80",
   "status": "partial",
   "theorems": [
    "GC.Concurrent.C80_alone",
    "GC.Concurrent.C80_outside_partial",
    "GC.Concurrent.C80_killed_partial",
    "GC.Concurrent.C80_counterexample",
    "GC.Concurrent.C80_during_partial",
    "GC.Concurrent.C80_during_additions_partial"
   ],
   "note": "False of the code: the file is truncated and rewritten in place without a lock; a query can load an empty graph, fail, or load an edge that never existed. Proved for queries answered before the truncation or begun after gc-build returned; a killed gc-build leaves a part of the graph or an unreadable file. gc-build run alone equals the sequential model (C80_alone). For queries that run while gc-build writes, for files of any size (C80_during_partial, C80_during_additions_partial): the loaded graph is that of a beginning of the stored commands, at most one other command, and additions of parts of the stored graph."
  },
  {
   "property": "C81",
   "status": "proved",
   "theorems": [
    "GC.Main.C81_csp_output_unambiguous",
    "GC.Main.C81_constraint_text_unambiguous"
   ],
   "note": "Constraints, end points, score and path can be read back from the printed text."
  },
  {
   "property": "C82",
   "status": "proved",
   "theorems": [
    "GC.C82_queries",
    "GC.C82_iterators",
    "GC.C82_short_path",
    "GC.C82_csp",
    "GC.C82_topological_sort",
    "GC.C82_bellman_ford_spfa",
    "GC.C82_hamiltonian"
   ],
   "note": "Every pair of graphs with the same vertices and edges. Which of several shortest paths or orders is returned may differ; costs, sets and existence do not."
  },
  {
   "property": "C83",
   "status": "partial",
   "theorems": [
    "GC.C83_counterexample_max_flow",
    "GC.C83_counterexample_cycles",
    "GC.C83_counterexample_dag",
    "GC.C83_max_flow_partial",
    "GC.C83_cycles_partial",
    "GC.C83_dag_partial"
   ],
   "note": "False of the code: the value of max_flow and the cycles listed can differ, and dag_shortest_paths panics for one order and returns for another (counterexamples). Proved: max_flow agrees on zero and where every inner vertex has one entry or one exit; the cycles agree with a root or strong connectivity; DAG scores agree when both runs return."
  },
  {
   "property": "C84",
   "status": "proved",
   "theorems": [
    "GC.C84_short_path",
    "GC.C84_csp",
    "GC.C84_topo_sort",
    "GC.C84_hamiltonian_cycle",
    "GC.C84_topo_sort_cyclic",
    "GC.C84_topo_sort_exact",
    "GC.C84_csp_exact",
    "GC.C84_cycle",
    "GC.C84_desc",
    "GC.C84_no_graph"
   ],
   "note": "Proved for every proper session by composing C75-C77 with the algorithm theorems. C84_topo_sort_exact, C84_csp_exact and C84_cycle cover all graphs, options and actions."
  },
  {
   "property": "C85",
   "status": "proved",
   "theorems": [
    "GC.C85_additions",
    "GC.C85_removals",
    "GC.C85_triangle",
    "GC.C85_new_edge"
   ],
   "note": "Proved for every graph with fewer than 2^63 vertices."
  },
  {
   "property": "C86",
   "status": "proved",
   "theorems": [
    "GC.Concurrent.C86_alone",
    "GC.Concurrent.C86_first_init"
   ],
   "note": "Proved for additions of one write (at most 8192 bytes; larger ones are C63/C79) and without gc-build. gc-init run alone equals the sequential model (C86_alone)."
  },
  {
   "property": "C87",
   "status": "proved",
   "theorems": [
    "GC.Random.C87_queries"
   ],
   "note": "Proved, under the condition that the generation ends (see C60)."
  },
  {
   "property": "C88",
   "status": "partial",
   "theorems": [
    "GC.Disk.C88_room_add",
    "GC.Disk.C88_room_delete",
    "GC.Disk.C88_room_build",
    "GC.Disk.C88_stored_partial",
    "GC.Disk.C88_small_never_reported",
    "GC.Disk.C88_loaded_partial",
    "GC.Disk.C88_build_partial",
    "GC.Disk.C88_counterexample_add",
    "GC.Disk.C88_counterexample_build"
   ],
   "note": "False of the code: the BufWriter is dropped without flush, so errors of the last buffer are lost (C88_counterexample_add: success and a wrong edge; C88_counterexample_build: success and a lost edge). Proved: with enough room everything behaves as on an unlimited disk; with little room exactly a prefix is stored, an error means that something is missing, more than 8192 missing bytes are always reported by the library function, less than 8192 written bytes never."
  },
  {
   "property": "C89",
   "status": "partial",
   "theorems": [
    "GC.C89_equivalence",
    "GC.C89_equal_graphs",
    "GC.C89_exact",
    "GC.C89_same_history_partial",
    "GC.C89_counterexample"
   ],
   "note": "Equivalence, and equal graphs have the same vertices, edges and neighbour lists: proved. The converse is false (C89_counterexample): == depends on the order in which edges were added, and a graph read back from the file it was saved to can be != to the original. C89_exact says exactly when two graphs are ==; C89_same_history_partial: same history implies ==."
  },
  {
   "property": "C90",
   "status": "proved",
   "theorems": [
    "GC.C90_neighbour_order",
    "GC.C90_save_load",
    "GC.C90_traversals",
    "GC.C90_sessions"
   ],
   "note": "Equality of programs (same outcome, panic or divergence) for every deterministic heap. SameUpToBuilds (Spec/Order.lean) relates sessions with the same commands up to save orders and additional gc-build runs."
  },
  {
   "property": "C91",
   "status": "partial",
   "theorems": [
    "GC.C91_recovery_partial",
    "GC.C91_killed_mutation_partial",
    "GC.C91_build_repairs_partial",
    "GC.C91_torn_line_partial",
    "GC.C91_stays_broken_partial",
    "GC.C91_counterexample",
    "GC.C91_every_step"
   ],
   "note": "False as stated: C91_counterexample (a torn line makes a later successful gc-add unreadable, permanently). Proved: gc-clean and gc-init always recover; the exact states left by killed gc-add/gc-delete; gc-build repairs a torn but readable file; after a torn line the first stored command breaks the file, and it stays broken until gc-clean or gc-random. C91_every_step: every state between two system calls of a single process is among the states the crash model allows."
  },
  {
   "property": "C92",
   "status": "proved",
   "theorems": [
    "GC.C92_init",
    "GC.C92_clean",
    "GC.C92_init_again",
    "GC.C92_clean_again"
   ],
   "note": "For every file system. Model/Crash.lean lists the states a killed process may leave; remove_dir_all may be killed between any two entries."
  },
  {
   "property": "C93",
   "status": "partial",
   "theorems": [
    "GC.C93_killed_outcomes_partial",
    "GC.C93_again_partial",
    "GC.C93_counterexample"
   ],
   "note": "False: C93_counterexample (no graph, or an empty graph). All outcomes are listed; gc-init and gc-random afterwards give the new graph."
  },
  {
   "property": "C94",
   "status": "partial",
   "theorems": [
    "GC.Unlink.C94_pieces_partial",
    "GC.Unlink.C94_same_without_clean",
    "GC.Unlink.C94_build_alone",
    "GC.Unlink.C94_clean_alone",
    "GC.Unlink.C94_random_alone",
    "GC.Unlink.C94_lives_partial",
    "GC.Unlink.C94_random_counterexample"
   ],
   "note": "Model/Unlink.lean: open files are inodes, so gc-clean and gc-random can be processes. Proved for gc-add, gc-delete, gc-init, gc-clean and queries with batches of one write; false with gc-random (C94_random_counterexample) and for larger batches (C63_counterexample). gc-clean and gc-random run alone equal the sequential model. C94_same_without_clean: without gc-clean and gc-random the inode model does exactly what the path model does; C94_build_alone. C94_pieces_partial: batches of any size on any content; every process wrote in order a beginning of its batch to one file (all of it on success), a query read one file as it was at some time."
  },
  {
   "property": "C95",
   "status": "partial",
   "theorems": [
    "GC.Unlink.C95_bytes_partial",
    "GC.Unlink.C95_nothing_back_partial",
    "GC.Unlink.C95_build_counterexample"
   ],
   "note": "False with gc-build (C95_build_counterexample: it writes the removed graph into the new file). Proved for gc-add, gc-delete, gc-init, gc-clean and queries with batches of one write. C95_bytes_partial: batches of any size on any content, for the bytes of the file."
  },
  {
   "property": "C96",
   "status": "partial",
   "theorems": [
    "GC.Unlink.C96_bytes_partial",
    "GC.Unlink.C96_kept_partial",
    "GC.Unlink.C96_build_counterexample"
   ],
   "note": "Proved for gc-add, gc-delete, gc-init, gc-clean and queries with batches of one write. False with gc-build (C96_build_counterexample). C96_bytes_partial: batches of any size on any content: the whole batch is in the file, in order (pieces of other batches may lie between, C63_counterexample)."
  },
  {
   "property": "C97",
   "status": "partial",
   "theorems": [
    "GC.Unlink.C97_bytes_partial",
    "GC.Unlink.C97_cleaned_partial",
    "GC.Unlink.C97_two_cleans_counterexample",
    "GC.Unlink.C97_failure_counterexample"
   ],
   "note": "Proved for gc-add, gc-delete, gc-init, gc-clean and queries with batches of one write; false with gc-build (C95_build_counterexample). A gc-clean that reports failure may have removed the graph (C97_failure_counterexample). C97_two_cleans_counterexample: two gc-clean at once may both report an error although the graph is gone. C97_bytes_partial: batches of any size on any content, for the bytes of the file."
  },
  {
   "property": "C98",
   "status": "partial",
   "theorems": [
    "GC.Concurrent.C98_all_or_nothing_partial",
    "GC.Concurrent.C98_loaded_first_partial",
    "GC.Concurrent.C98_lost_counterexample",
    "GC.Concurrent.C98_phantom_counterexample",
    "GC.Concurrent.C98_large_counterexample"
   ],
   "note": "False of the code: a gc-build that loads while another one has truncated the file writes back the empty graph; files of more than 8192 bytes can become unreadable (proved for every such graph), and a file without a final line feed can gain an edge. Proved for files of at most 8192 bytes written by gc-build: the graph is kept whole or becomes empty, and it is kept if all gc-build processes load before one writes."
  },
  {
   "property": "C99",
   "status": "proved",
   "theorems": [
    "GC.Bytes.C99_decoding",
    "GC.Bytes.C99_text_files",
    "GC.Bytes.C99_first_bad_line",
    "GC.Bytes.C99_not_text",
    "GC.Bytes.C99_never_loads",
    "GC.Bytes.C99_tgf_not_text",
    "GC.Bytes.C99_build",
    "GC.Bytes.C99_torn_writes",
    "GC.Bytes.C99_append",
    "GC.Bytes.C99_answers"
   ],
   "note": "UTF-8 is Lean's String.utf8EncodeChar. The decoder is std's validation table. C99_tgf_not_text: the same for TGF files."
  },
  {
   "property": "C100",
   "status": "proved",
   "theorems": [
    "GC.C100_success_iff",
    "GC.C100_add_vertices",
    "GC.C100_add_edges",
    "GC.C100_remove_vertices",
    "GC.C100_remove_edges"
   ],
   "note": "A stored graph without final line feed is excluded from the effect theorems (see C14)."
  },
  {
   "property": "C101",
   "status": "proved",
   "theorems": [
    "GC.C101_shortest_path",
    "GC.C101_constrained_shortest_path",
    "GC.C101_dag_shortest_paths",
    "GC.C101_dag_longest_paths",
    "GC.C101_bellman_ford",
    "GC.C101_spfa",
    "GC.C101_max_flow",
    "GC.C101_commands",
    "GC.C101_gc_random"
   ],
   "note": ""
  },
  {
   "property": "C102",
   "status": "partial",
   "theorems": [
    "GC.C102_bellman_ford_partial",
    "GC.C102_spfa_partial",
    "GC.C102_dag_shortest_paths_partial",
    "GC.C102_small_weights_partial",
    "GC.C102_max_flow_partial",
    "GC.C102_counterexample_bellman_ford",
    "GC.C102_counterexample_spfa",
    "GC.C102_counterexample_dag_longest_paths",
    "GC.C102_counterexample_max_flow"
   ],
   "note": "False: overflow is silent. Proved: what the results still mean, and correctness for small weights."
  },
  {
   "property": "C103",
   "status": "partial",
   "theorems": [
    "GC.Random.C103_counterexample_cycle",
    "GC.Random.C103_counterexample_connected"
   ],
   "note": "False: the options are declared but never read (C103_counterexample_cycle holds for every run)."
  },
  {
   "property": "C104",
   "status": "proved",
   "theorems": [
    "GC.Output.C104_gc_build",
    "GC.Output.C104_gc_clean",
    "GC.Output.C104_gc_random"
   ],
   "note": ""
  },
  {
   "property": "C105",
   "status": "partial",
   "theorems": [
    "GC.Output.C105_gc_build_partial",
    "GC.Output.C105_counterexample_gc_build",
    "GC.Output.C105_gc_clean_partial",
    "GC.Output.C105_counterexample_silent",
    "GC.Output.C105_done_gc_build",
    "GC.Output.C105_done_gc_clean"
   ],
   "note": "False: gc-build counts self-loops wrongly (C04); gc-clean --silent still prints its question without --force. C105_done_*: Done. is printed only after the graph was saved or removed."
  },
  {
   "property": "C106",
   "status": "proved",
   "theorems": [
    "GC.Faults.C106_faultless",
    "GC.Faults.C106_recovery",
    "GC.Faults.C106_nothing_lost",
    "GC.Faults.C106_init_success",
    "GC.Faults.C106_clean_success"
   ],
   "note": "Proved for every session and every choice of failing calls (Model/Faults.lean, relational); C106_faultless shows that the runs without faults are included."
  },
  {
   "property": "C107",
   "status": "partial",
   "theorems": [
    "GC.Faults.C107_call_partial",
    "GC.Faults.C107_loaded_partial",
    "GC.Faults.C107_stored_partial",
    "GC.Faults.C107_counterexample_never_reported",
    "GC.Faults.C107_build_partial",
    "GC.Faults.C107_random_partial",
    "GC.Faults.C107_counterexample_ok",
    "GC.Faults.C107_counterexample_error",
    "GC.Faults.C107_counterexample_unreadable"
   ],
   "note": "False: gc-add and gc-delete never report a failing call (for every run); a call returns Ok although any part of a text shorter than 8192 bytes is missing (for every initialised graph), or an error although everything was stored; gc-add succeeds and leaves an unreadable file. Proved: what is stored is, per call, a beginning of the lines; Ok/success of a call, gc-build and gc-random means at most 8192 bytes are missing."
  },
  {
   "property": "C108",
   "status": "proved",
   "theorems": [
    "GC.C108_level_by_level",
    "GC.C108_sources_first"
   ],
   "note": ""
  },
  {
   "property": "C109",
   "status": "proved",
   "theorems": [
    "GC.Stream.C109_answer_arrives",
    "GC.Stream.C109_only_the_answer",
    "GC.Stream.C109_exit_zero",
    "GC.Stream.C109_no_answer",
    "GC.Stream.C109_only_more",
    "GC.Stream.C109_constraints_first",
    "GC.Stream.C109_cycles_as_found",
    "GC.Stream.C109_cycles_so_far"
   ],
   "note": "Model/Stream.lean; the whole answers are those of Model/Main.lean (C71-C74, C67). std's line buffer is counted in characters."
  },
  {
   "property": "C110",
   "status": "partial",
   "theorems": [
    "GC.C110_vertices",
    "GC.C110_edges",
    "GC.C110_cycles",
    "GC.C110_canonical_least",
    "GC.C110_scored_paths_partial",
    "GC.C110_scored_paths_counterexample",
    "GC.C110_edge_from"
   ],
   "note": "False for scored paths: cmp looks at the score only, so it says Equal for different paths. Proved for vertices, edges and cycles; for scored paths cmp is a weak order."
  },
  {
   "property": "C111",
   "status": "proved",
   "theorems": [
    "GC.C111_validate_message",
    "GC.C111_read_message",
    "GC.C111_topo_sort",
    "GC.C111_short_path",
    "GC.C111_cycles",
    "GC.C111_one_cycle",
    "GC.C111_desc"
   ],
   "note": "gc-csp is C81. Numbers are assumed to fit their Rust types."
  },
  {
   "property": "C112",
   "status": "proved",
   "theorems": [
    "GC.C112_bellman_ford",
    "GC.C112_spfa",
    "GC.C112_agree",
    "GC.C112_nonnegative"
   ],
   "note": "Checked (debug) arithmetic. Weights are any integers; a walk whose weight reaches i64::MAX counts as no walk, since the code uses i64::MAX for 'not reached'."
  },
  {
   "property": "C113",
   "status": "proved",
   "theorems": [
    "GC.C113_pieces",
    "GC.C113_failure",
    "GC.C113_load",
    "GC.C113_load_succeeds",
    "GC.C113_answer"
   ],
   "note": "The list of calls ends with the end of the file. gc-random asks in the same way; only gc-clean is stated."
  },
  {
   "property": "C114",
   "status": "proved",
   "theorems": [
    "GC.C114_dfs",
    "GC.C114_bfs",
    "GC.C114_paths",
    "GC.C114_best",
    "GC.C114_cycles_and_hamiltonian_paths",
    "GC.C114_stays_ended"
   ],
   "note": ""
  },
  {
   "property": "C115",
   "status": "proved",
   "theorems": [
    "GC.C115_only_own",
    "GC.C115_only_own_killed",
    "GC.C115_only_own_faults",
    "GC.C115_queries",
    "GC.C115_sessions",
    "GC.C115_sessions_queries"
   ],
   "note": "All commands that change a graph, from every state of the file system, also killed and with failing calls; sessions in any number of directories. Two examples show that directories inside of .graph or named lock are excluded for a reason."
  },
  {
   "property": "C116",
   "status": "proved",
   "theorems": [
    "GC.Cli.C116_exact",
    "GC.Cli.C116_exact_any",
    "GC.Cli.C116_spelling",
    "GC.Cli.C116_asks",
    "GC.Cli.C116_asks_build",
    "GC.Cli.C116_refused",
    "GC.Cli.C116_told_only_if_asked",
    "GC.Cli.C116_told_if_asked",
    "GC.Cli.C116_one_action"
   ],
   "note": "All words, all eleven binaries (and any sensible declarations). The parser models clap 2.33.0 from knowledge of it; the grammar in Spec/Cli.lean is independent of the parser. C116_told_*: when clap answers with the help text or the version. C116_one_action: exactly one action of gc-cycle."
  },
  {
   "property": "C117",
   "status": "proved",
   "theorems": [
    "GC.Cli.C117_typed_session",
    "GC.Cli.C117_typed_session_on",
    "GC.Cli.C117_total",
    "GC.Cli.C117_unique"
   ],
   "note": "One directory; other directories: C115. gc-random with the graph it generated as an input."
  },
  {
   "property": "C118",
   "status": "partial",
   "theorems": [
    "GC.Cli.C118_counterexample_verbose",
    "GC.Cli.C118_counterexample_vertices",
    "GC.Cli.C118_counterexample_edges",
    "GC.Cli.C118_counterexample_negative",
    "GC.Cli.C118_equals_partial"
   ],
   "note": "False of the code; the counterexamples are statements about all command lines (and graphs). What holds: with an equality sign every value can be given."
  },
  {
   "property": "C119",
   "status": "proved",
   "theorems": [
    "GC.Terminal.C119_transcript_on",
    "GC.Terminal.C119_transcript",
    "GC.Terminal.C119_ends",
    "GC.Terminal.C119_ends_csp",
    "GC.Terminal.C119_ends_csp_nothing",
    "GC.Terminal.C119_ends_random"
   ],
   "note": "Texts printed on standard output, byte for byte, exit codes and stored graphs. What clap prints for help and version is an input. Nothing is claimed about the text of gc-short-path on graphs with 2^63 vertices or more. The disk works and standard output is open; failures are in C104 to C107 and C109. C119_ends_csp_nothing: when gc-csp answers although nothing meets its options."
  },
  {
   "property": "C120",
   "status": "partial",
   "theorems": [
    "GC.C120_vertices",
    "GC.C120_short_path",
    "GC.C120_topological_sort",
    "GC.C120_paths",
    "GC.C120_diamonds",
    "GC.C120_counterexample_csp",
    "GC.C120_counterexample_max_flow",
    "GC.C120_counterexample_cycle",
    "GC.C120_counterexample_hamiltonian"
   ],
   "note": "Proved: the vertex iterators, gc-short-path and topological_sort need at most one round per vertex (plus two), path iterators one round per simple path. False of gc-csp without constraints, max_flow, all actions of gc-cycle and the search for hamiltonian paths: on chains of n diamonds (3n+1 vertices, 4n edges, no cycle; C120_diamonds: they can be built for every n) they need more than 2^n rounds. Rounds of loops are counted, not time; loops over lists known beforehand are not counted."
  },
  {
   "property": "C121",
   "status": "proved",
   "theorems": [
    "GC.C121_csp",
    "GC.C121_max_flow",
    "GC.C121_cycle",
    "GC.C121_hamiltonian"
   ],
   "note": "Bounds on rounds of loops for every graph. max_flow: max(edges, simple paths from the start) + 1, for start \u2260 end, whether it returns or overflows. gc-csp: for every answer it returns. gc-cycle: all actions and options. Rounds are counted, not time; loops over lists known beforehand are not counted."
  },
  {
   "property": "C122",
   "status": "partial",
   "theorems": [
    "GC.Manual.C122_accepted",
    "GC.Manual.C122_accepted_build_partial",
    "GC.Manual.C122_told_if_asked",
    "GC.Manual.C122_told_only_if_asked",
    "GC.Manual.C122_help"
   ],
   "note": "Proved for all binaries but gc-build, whose option --verbose is always on (C118). The numbers of values are not in README.md and are specified as in the code."
  },
  {
   "property": "C123",
   "status": "proved",
   "theorems": [
    "GC.Disk.C123_one_command",
    "GC.Disk.C123_room_kept",
    "GC.Disk.C123_enough_room",
    "GC.Disk.C123_appends",
    "GC.Disk.C123_appended",
    "GC.Disk.C123_is_fault",
    "GC.Disk.C123_start_again"
   ],
   "note": "Proved for all commands and sessions (Model/DiskSession.lean), in terms of the same session without a limit (Store.session). C123_is_fault: these runs are among those of Model/Faults.lean, so C106 and C107 apply. What the loaded graph is when a line was cut off is C88 and C91."
  },
  {
   "property": "C124",
   "status": "proved",
   "theorems": [
    "GC.C124_order",
    "GC.C124_beginnings",
    "GC.C124_sorted",
    "GC.C124_determined",
    "GC.C124_shortest_path",
    "GC.C124_shortest_path_determined"
   ],
   "note": ""
  },
  {
   "property": "C125",
   "status": "proved",
   "theorems": [
    "GC.C125_order",
    "GC.C125_end",
    "GC.C125_determined",
    "GC.C125_answer"
   ],
   "note": ""
  },
  {
   "property": "C126",
   "status": "proved",
   "theorems": [
    "GC.Unlink.C126_add",
    "GC.Unlink.C126_init",
    "GC.Unlink.C126_clean",
    "GC.Unlink.C126_random",
    "GC.Unlink.C126_query",
    "GC.Unlink.C126_build",
    "GC.Unlink.C126_query_beside"
   ],
   "note": ""
  },
  {
   "property": "C127",
   "status": "proved",
   "theorems": [
    "GC.Compact.C127_lines",
    "GC.Compact.C127_size",
    "GC.Compact.C127_again",
    "GC.Compact.C127_bound",
    "GC.Compact.C127_sharp"
   ],
   "note": ""
  },
  {
   "property": "C128",
   "status": "proved",
   "theorems": [
    "GC.C128_vertices",
    "GC.C128_best",
    "GC.C128_paths",
    "GC.C128_hamiltonian",
    "GC.C128_cycles",
    "GC.C128_breadth_first"
   ],
   "note": ""
  },
  {
   "property": "C129",
   "status": "partial",
   "theorems": [
    "GC.C129_commands",
    "GC.C129_listings",
    "GC.C129_iterators",
    "GC.C129_short_path",
    "GC.C129_csp",
    "GC.C129_topological_sort",
    "GC.C129_weights",
    "GC.C129_hamiltonian",
    "GC.C129_cycles_partial",
    "GC.C129_max_flow_partial",
    "GC.C129_counterexample"
   ],
   "note": "The value of max_flow and the number of cycles listed depend on the order in which the hash map iterates, so they differ between graphs that are the same up to names (C129_counterexample); C129_max_flow_partial and C129_cycles_partial give the cases in which they agree. Everything else is proved in full."
  },
  {
   "property": "C130",
   "status": "partial",
   "theorems": [
    "GC.C130_commands",
    "GC.C130_listings",
    "GC.C130_traversals",
    "GC.C130_short_path",
    "GC.C130_weights",
    "GC.C130_hamiltonian",
    "GC.C130_topological_sort_partial",
    "GC.C130_cycles_partial",
    "GC.C130_max_flow_partial",
    "GC.C130_counterexample"
   ],
   "note": "False for topological_sort with self-loops, for the list of cycles and for max_flow (C130_counterexample); the partial theorems give the cases in which it holds. Everything else is proved in full."
  },
  {
   "property": "C131",
   "status": "partial",
   "theorems": [
    "GC.C131_commands",
    "GC.C131_iterators",
    "GC.C131_short_path",
    "GC.C131_csp",
    "GC.C131_topological_sort",
    "GC.C131_weights",
    "GC.C131_hamiltonian",
    "GC.C131_cycles_partial",
    "GC.C131_max_flow_partial",
    "GC.C131_counterexample"
   ],
   "note": "False for max_flow and the list of cycles: one more edge can lower the value or empty the list (C131_counterexample); the partial theorems give the cases in which it holds. Everything else is proved in full."
  },
  {
   "property": "C132",
   "status": "partial",
   "theorems": [
    "GC.C132_appends_partial",
    "GC.C132_appends_each_partial",
    "GC.C132_any_session_partial",
    "GC.C132_counterexample"
   ],
   "note": "False: nothing waits for the disk, so a successful gc-add can be lost and a successful gc-build can lose the old graph too (C132_counterexample). The partial theorems say what is left when changes reach the disk in order."
  },
  {
   "property": "C133",
   "status": "proved",
   "theorems": [
    "GC.Paths.C133_command",
    "GC.Paths.C133_load",
    "GC.Paths.C133_session",
    "GC.Paths.C133_one_meaning",
    "GC.Paths.C133_has_meaning",
    "GC.Paths.C133_slash_at_end",
    "GC.Paths.C133_dot_before",
    "GC.Paths.C133_from_the_top",
    "GC.Paths.C133_double_slash"
   ],
   "note": ""
  },
  {
   "property": "C134",
   "status": "proved",
   "theorems": [
    "GC.Regex.C134_search_is_right",
    "GC.Regex.C134_search_is_complete",
    "GC.Regex.C134_longest_repetition",
    "GC.Regex.C134_gcmd",
    "GC.Regex.C134_tgf",
    "GC.Regex.C134_files",
    "GC.Regex.C134_grammar"
   ],
   "note": ""
  },
  {
   "property": "C135",
   "status": "proved",
   "theorems": [
    "GC.C135_unsigned",
    "GC.C135_signed",
    "GC.C135_written",
    "GC.C135_written_signed",
    "GC.C135_round_trip",
    "GC.C135_round_trip_signed",
    "GC.C135_model"
   ],
   "note": ""
  },
  {
   "property": "C136",
   "status": "proved",
   "theorems": [
    "GC.C136_excluded_vertices",
    "GC.C136_excluded_start",
    "GC.C136_excluded_edges",
    "GC.C136_exclude_option",
    "GC.C136_no_constraints",
    "GC.C136_delete_instead",
    "GC.C136_no_cycle",
    "GC.C136_through_vertex",
    "GC.C136_through_edge",
    "GC.C136_max_length",
    "GC.C136_same_meaning",
    "GC.C136_fewer_constraints",
    "GC.C136_either"
   ],
   "note": ""
  },
  {
   "property": "C137",
   "status": "partial",
   "theorems": [
    "GC.C137_commands",
    "GC.C137_iterators",
    "GC.C137_short_path",
    "GC.C137_csp",
    "GC.C137_weights",
    "GC.C137_dag_partial",
    "GC.C137_counterexample"
   ],
   "note": "False for dag_shortest_paths: a vertex that cannot be reached can make it panic (C137_counterexample); C137_dag_partial gives the same scores if it returns in both graphs. For bellman_ford and spfa with sums of weights outside i64 the statement is about runs that return. Everything else is proved in full."
  },
  {
   "property": "C138",
   "status": "proved",
   "theorems": [
    "GC.C138_reachable",
    "GC.C138_distance",
    "GC.C138_topological",
    "GC.C138_girth",
    "GC.C138_hamiltonian"
   ],
   "note": ""
  },
  {
   "property": "C139",
   "status": "proved",
   "theorems": [
    "GC.C139_scaled",
    "GC.C139_scaled_panics",
    "GC.C139_divides",
    "GC.C139_remove_edges",
    "GC.C139_add_edges"
   ],
   "note": ""
  },
  {
   "property": "C140",
   "status": "proved",
   "theorems": [
    "GC.C140_bellman_ford",
    "GC.C140_spfa",
    "GC.C140_dag_shortest_paths",
    "GC.C140_dag_longest_paths",
    "GC.C140_negated"
   ],
   "note": ""
  },
  {
   "property": "C141",
   "status": "proved",
   "theorems": [
    "GC.C141_equations",
    "GC.C141_triangle",
    "GC.C141_along_paths",
    "GC.C141_longest_equations",
    "GC.C141_longest_triangle"
   ],
   "note": ""
  },
  {
   "property": "C142",
   "status": "proved",
   "theorems": [
    "GC.C142_order",
    "GC.C142_iteration",
    "GC.C142_shortest_path"
   ],
   "note": ""
  },
  {
   "property": "C143",
   "status": "partial",
   "theorems": [
    "GC.C143_constrained_search_partial",
    "GC.C143_cycle_filter",
    "GC.C143_validate_order",
    "GC.C143_validate_counterexample",
    "GC.C143_counterexample"
   ],
   "note": "True for order, repetition and the laws of Or, And and Xor (constrained search), for any two lists with the same meaning (gc-cycle) and for order (validate). False of the code otherwise: pruning does not look below Not except at a single ContainsVertex, ContainsEdge or ContainsCycle, so a double negation can make a search run forever (C143_counterexample); validate does not look into And (C143_validate_counterexample)."
  },
  {
   "property": "C144",
   "status": "proved",
   "theorems": [
    "GC.C144_swap_iff",
    "GC.C144_reorder",
    "GC.C144_repeat",
    "GC.C144_repeat_needs_condition"
   ],
   "note": ""
  },
  {
   "property": "C145",
   "status": "proved",
   "theorems": [
    "GC.C145_vertex",
    "GC.C145_edge",
    "GC.C145_overwritten",
    "GC.C145_undo",
    "GC.C145_reach"
   ],
   "note": ""
  },
  {
   "property": "C146",
   "status": "proved",
   "theorems": [
    "GC.C146_bellman_ford",
    "GC.C146_spfa",
    "GC.C146_dag",
    "GC.C146_each_matters",
    "GC.C146_max_flow",
    "GC.C146_attributes"
   ],
   "note": ""
  },
  {
   "property": "C147",
   "status": "proved",
   "theorems": [
    "GC.C147_each_path",
    "GC.C147_unpruned",
    "GC.C147_max_length",
    "GC.C147_no_cycle",
    "GC.C147_all_scored",
    "GC.C147_iteration",
    "GC.C147_shortest_path",
    "GC.C147_no_shortcut",
    "GC.C147_constrained"
   ],
   "note": ""
  },
  {
   "property": "C148",
   "status": "proved",
   "theorems": [
    "GC.C148_shortest_path",
    "GC.C148_constrained",
    "GC.C148_none"
   ],
   "note": ""
  },
  {
   "property": "C149",
   "status": "proved",
   "theorems": [
    "GC.C149_weights",
    "GC.C149_commands",
    "GC.C149_iterators",
    "GC.C149_short_path",
    "GC.C149_csp",
    "GC.C149_hamiltonian"
   ],
   "note": ""
  },
  {
   "property": "C150",
   "status": "proved",
   "theorems": [
    "GC.C150_commands",
    "GC.C150_iterators",
    "GC.C150_short_path",
    "GC.C150_csp",
    "GC.C150_weights"
   ],
   "note": ""
  }
 ]
}
