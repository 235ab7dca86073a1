{
 "C04": "False as stated because of self-loops (C04_counterexample); exact formula and loop-free case proved.",
 "C08": "Involution proved; undo characterised exactly; false for RemoveVertex with incident edges and AddEdge creating endpoints (C08_counterexample).",
 "C13": "False as stated (C13_counterexample: ids >= 2^64 and non-ASCII digits panic). Proved: the exact set of files that panic, for both formats.",
 "C15": "False as stated (C15_counterexample: a torn line can name another vertex or make the file unreadable). Proved: the complete list of outcomes for every crash point.",
 "C16": "False as stated (C16_counterexample: a vertex label beginning with a digit turns the line into an edge). Proved for all other labels, and for all edge labels; C16_vertex_label_exact says for exactly which labels the line is read as that vertex. C16_accepts_exactly: the grammar of TGF lines; C16_graph_of_file: the graph of a whole file.",
 "C17": "Graph preservation proved; crash safety is false (C17_counterexample: truncation loses the graph). Proved: the complete list of crash outcomes.",
 "C22": "False as stated: the validator rejects lists that say nothing about cycles (C22_counterexample). Proved: exactly which lists are accepted, and that every rejection of the listed kinds is justified. The returned error describes a contradiction that is in the list (C22_error_describes).",
 "C23": "False as stated: --max-score is turned into a second minimum score (C23_counterexample). Proved: all other options mean what the help text says, and what all options together ask for in fact (C23_csp_accepts, C23_cycle_accepts).",
 "C26": "False as stated (C26_counterexample). Proved: exact depth-first order on out-trees, a search order (each vertex after one of its in-neighbours) on all graphs, and the exact order produced on every graph (C26_preorder_partial): the preorder of the tree in which each vertex owns the out-neighbours it is first to find.",
 "C34": "False in general: C34_counterexample (edge costs), C34_counterexample_heuristic (unit costs, consistent heuristic). Proved for costs whose reduction by the heuristic depends only on the target vertex (C34_target_cost_partial), e.g. vertex costs. For all other costs C34_bound_partial and C34_ratio_partial bound how much more expensive the answer may be: with weights between lo and hi at most hi/lo times. C124 says exactly which path is returned.",
 "C37": "A solution is always found when one exists; 'not reachable' is answered when MaxLength, MaxScore or Not ContainsCycle bounds the search; otherwise the search for a missing solution never ends (C37_counterexample, general form C37_counterexample_general). C37_not_reachable_iff says exactly when a missing solution is reported, for any constraints.",
 "C38": "Proved for graphs without self-loops; exact shape of the result for every graph in C38_order_any_graph. False with a single self-loop: C38_counterexample.",
 "C39": "Exact success condition proved for every graph in C39_exact. The claim itself holds without self-loops and is false with a single dead-end self-loop: C39_counterexample. If the vertices form a chain the order is that chain (C39_unique_order, C39_chain), and a ring has none (C39_ring).",
 "C41": "False: C41_counterexample shows that it panics or not depending on the hash iteration order. C41_panics_iff gives the exact panic condition, C41_returns_partial the case where it returns.",
 "C43": "C43_max_weight_is_lost shows why weights summing to exactly i64::MAX are excluded.",
 "C45": "With overflow checks (debug build) a reachable negative cycle ends in a panic: C45_spfa_negative_cycle.",
 "C49": "Exactly the cycles reachable from the start vertices are enumerated (C49_exact); complete if every vertex is reachable from a root or the graph is strongly connected. False in general: two counterexamples (missed cycle; result depends on hash order).",
 "C53": "False when an option names the closing edge of a cycle (C53_counterexample) and for max-score (C23). Everything else is proved for all actions.",
 "C55": "False (C55_counterexample): backward edges are never followed. Proved: the flow is blocking and bounded by every cut, it is 0 iff the maximum is 0, it is maximum when inner vertices have at most one incoming (or at most one outgoing) edge or the graph has at most three vertices, and the maximum is at most half the number of vertices times the reported value. C55_maximum_iff_partial says exactly when the value is right: when the returned flow cannot be rerouted, and when it is the capacity of a cut. C55_unbounded_counterexample: for every k there is a network of 6k+2 vertices where 1 is reported and a flow of value k exists, so no constant factor bounds the error.",
 "C56": "Always ends; returns when start and end differ and a cut has capacity below 2^64. Panics when start = end, and on overflow of the total (debug build): only if some flow has a value of 2^64 or more, and always if some flow has a value above (2^64-1) * (number of vertices / 2) (C56_panics_partial).",
 "C59": "False as stated: invalid options are dropped instead of refused. C59_csp_counterexample and C59_cycle_counterexample: every run is the same as without the invalid options. Proved: exactly when an option is dropped.",
 "C60": "Acyclicity and the edge count hold for all random numbers. The requested vertex count and termination fail: counterexamples. Termination is characterised exactly. C60_exact: exactly which graph is generated from the random numbers.",
 "C61": "False of the code: lock() creates the file without O_EXCL and never looks at it. Proved: any number of processes can be inside at once and none ever waits; the lock file is present while nobody returned.",
 "C63": "Proved for every schedule: each batch reaches the file completely and in order (any size); batches up to 8192 bytes (the BufWriter capacity) are stored whole in some serial order, so loading gives the serial result. False for longer batches: the counterexample makes the graph unreadable. Each write call on a file opened with O_APPEND is taken as atomic.",
 "C64": "Proved except that a user's file called 'lock' is deleted (C64_counterexample).",
 "C65": "False as stated (C65_counterexample: success without an initialised graph). Proved: the exact condition for a normal exit of gc-add and gc-delete, and that commands are stored if the graph is initialised.",
 "C67": "False for the edge count of graphs with self-loops (C67_counterexample). Proved otherwise; C67_edges_exact and C67_printed_exact give the printed count for every graph.",
 "C68": "False across options (C68_counterexample). Proved: a failing gc-add leaves the state of a gc-add with the options before the first invalid one, a failing gc-delete removed the given vertices or nothing; each single option is atomic.",
 "C70": "False of the code: gc-build takes no lock, an addition between its load and its truncation is lost. Proved when, from the end of its load on, the steps of gc-build are next to each other (additions may run before and while it reads). C70_exact_partial says for every schedule which additions are stored and which are lost: those written between the last read of gc-build and its truncation are gone, those written until its last write are overwritten from the front.",
 "C71": "Proved for acyclic graphs, and for all graphs without self-loops; false with self-loops: a witness is given where an order is printed and one vertex is missing. C71_exact: what is printed for every stored graph.",
 "C72": "From the argument strings and the command file to the printed text. The graph must have less than 2^63 vertices.",
 "C73": "C73_text: the whole text, the requirements being announced as Spec/Announce.lean describes from the options alone. C73_exact, C73_finds: what is printed with any options, max-score being one more minimum. Without max-score: what is printed is right, and the program ends if there is a solution or the options bound the walks. Counterexamples: it never ends on a graph with a cycle if nothing is found, and max-score is taken as a lower bound. C73_ends_iff, C73_never_answers_iff: if nothing is found, it answers exactly if the options bound the walks, or no walk allowed by exclude and ordered can go round the same closed walk twice.",
 "C74": "--hamiltonian is right for every graph. --all and --count are right for graphs reachable from their roots, strongly connected and acyclic ones; counterexample: the count depends on the iteration order. C74_exact characterises the printed cycles of every graph. C74_report: what is printed for each action with any constraint options, on every graph.",
 "C75": "Sessions over the modelled binaries, from a usable directory (no graph, or a readable command file whose last line is complete); crash-free and sequential (crashes: C15, C17; concurrency: C61, C63, C70). gc-random enters with the graph it generated (C60).",
 "C76": "For points of the session at which a graph is stored; without a graph gc-build fails and gc-init creates one (part of C75).",
 "C77": "Undoing restores the edges; the end vertices stay, as the theorem states.",
 "C78": "Proved for every schedule; each read and each append is taken as atomic, files are ASCII (what the commands write is: C99_torn_writes).",
 "C79": "Proved for every schedule; system calls are atomic, so crashes that cut a single write are C15.",
 "C80": "False of the code: the file is truncated and rewritten in place without a lock; a query can load an empty graph, fail, or load an edge that never existed. Proved for queries answered before the truncation or begun after gc-build returned; a killed gc-build leaves a part of the graph or an unreadable file. gc-build run alone equals the sequential model (C80_alone). For queries that run while gc-build writes, for files of any size (C80_during_partial, C80_during_additions_partial): the loaded graph is that of a beginning of the stored commands, at most one other command, and additions of parts of the stored graph.",
 "C81": "Constraints, end points, score and path can be read back from the printed text.",
 "C82": "Every pair of graphs with the same vertices and edges. Which of several shortest paths or orders is returned may differ; costs, sets and existence do not.",
 "C83": "False of the code: the value of max_flow and the cycles listed can differ, and dag_shortest_paths panics for one order and returns for another (counterexamples). Proved: max_flow agrees on zero and where every inner vertex has one entry or one exit; the cycles agree with a root or strong connectivity; DAG scores agree when both runs return.",
 "C84": "Proved for every proper session by composing C75-C77 with the algorithm theorems. C84_topo_sort_exact, C84_csp_exact and C84_cycle cover all graphs, options and actions.",
 "C85": "Proved for every graph with fewer than 2^63 vertices.",
 "C86": "Proved for additions of one write (at most 8192 bytes; larger ones are C63/C79) and without gc-build. gc-init run alone equals the sequential model (C86_alone).",
 "C87": "Proved, under the condition that the generation ends (see C60).",
 "C88": "False of the code: the BufWriter is dropped without flush, so errors of the last buffer are lost (C88_counterexample_add: success and a wrong edge; C88_counterexample_build: success and a lost edge). Proved: with enough room everything behaves as on an unlimited disk; with little room exactly a prefix is stored, an error means that something is missing, more than 8192 missing bytes are always reported by the library function, less than 8192 written bytes never.",
 "C89": "Equivalence, and equal graphs have the same vertices, edges and neighbour lists: proved. The converse is false (C89_counterexample): == depends on the order in which edges were added, and a graph read back from the file it was saved to can be != to the original. C89_exact says exactly when two graphs are ==; C89_same_history_partial: same history implies ==.",
 "C90": "Equality of programs (same outcome, panic or divergence) for every deterministic heap. SameUpToBuilds (Spec/Order.lean) relates sessions with the same commands up to save orders and additional gc-build runs.",
 "C91": "False as stated: C91_counterexample (a torn line makes a later successful gc-add unreadable, permanently). Proved: gc-clean and gc-init always recover; the exact states left by killed gc-add/gc-delete; gc-build repairs a torn but readable file; after a torn line the first stored command breaks the file, and it stays broken until gc-clean or gc-random. C91_every_step: every state between two system calls of a single process is among the states the crash model allows.",
 "C92": "For every file system. Model/Crash.lean lists the states a killed process may leave; remove_dir_all may be killed between any two entries.",
 "C93": "False: C93_counterexample (no graph, or an empty graph). All outcomes are listed; gc-init and gc-random afterwards give the new graph.",
 "C94": "Model/Unlink.lean: open files are inodes, so gc-clean and gc-random can be processes. Proved for gc-add, gc-delete, gc-init, gc-clean and queries with batches of one write; false with gc-random (C94_random_counterexample) and for larger batches (C63_counterexample). gc-clean and gc-random run alone equal the sequential model. C94_same_without_clean: without gc-clean and gc-random the inode model does exactly what the path model does; C94_build_alone. C94_pieces_partial: batches of any size on any content; every process wrote in order a beginning of its batch to one file (all of it on success), a query read one file as it was at some time.",
 "C95": "False with gc-build (C95_build_counterexample: it writes the removed graph into the new file). Proved for gc-add, gc-delete, gc-init, gc-clean and queries with batches of one write. C95_bytes_partial: batches of any size on any content, for the bytes of the file.",
 "C96": "Proved for gc-add, gc-delete, gc-init, gc-clean and queries with batches of one write. False with gc-build (C96_build_counterexample). C96_bytes_partial: batches of any size on any content: the whole batch is in the file, in order (pieces of other batches may lie between, C63_counterexample).",
 "C97": "Proved for gc-add, gc-delete, gc-init, gc-clean and queries with batches of one write; false with gc-build (C95_build_counterexample). A gc-clean that reports failure may have removed the graph (C97_failure_counterexample). C97_two_cleans_counterexample: two gc-clean at once may both report an error although the graph is gone. C97_bytes_partial: batches of any size on any content, for the bytes of the file.",
 "C98": "False of the code: a gc-build that loads while another one has truncated the file writes back the empty graph; files of more than 8192 bytes can become unreadable (proved for every such graph), and a file without a final line feed can gain an edge. Proved for files of at most 8192 bytes written by gc-build: the graph is kept whole or becomes empty, and it is kept if all gc-build processes load before one writes.",
 "C99": "UTF-8 is Lean's String.utf8EncodeChar. The decoder is std's validation table. C99_tgf_not_text: the same for TGF files.",
 "C30": "C30_std_heap: the array algorithm of std's BinaryHeap meets the laws assumed of every heap.",
 "C100": "A stored graph without final line feed is excluded from the effect theorems (see C14).",
 "C102": "False: overflow is silent. Proved: what the results still mean, and correctness for small weights.",
 "C103": "False: the options are declared but never read (C103_counterexample_cycle holds for every run).",
 "C105": "False: gc-build counts self-loops wrongly (C04); gc-clean --silent still prints its question without --force. C105_done_*: Done. is printed only after the graph was saved or removed.",
 "C106": "Proved for every session and every choice of failing calls (Model/Faults.lean, relational); C106_faultless shows that the runs without faults are included.",
 "C107": "False: gc-add and gc-delete never report a failing call (for every run); a call returns Ok although any part of a text shorter than 8192 bytes is missing (for every initialised graph), or an error although everything was stored; gc-add succeeds and leaves an unreadable file. Proved: what is stored is, per call, a beginning of the lines; Ok/success of a call, gc-build and gc-random means at most 8192 bytes are missing.",
 "C109": "Model/Stream.lean; the whole answers are those of Model/Main.lean (C71-C74, C67). std's line buffer is counted in characters.",
 "C110": "False for scored paths: cmp looks at the score only, so it says Equal for different paths. Proved for vertices, edges and cycles; for scored paths cmp is a weak order.",
 "C111": "gc-csp is C81. Numbers are assumed to fit their Rust types.",
 "C112": "Checked (debug) arithmetic. Weights are any integers; a walk whose weight reaches i64::MAX counts as no walk, since the code uses i64::MAX for 'not reached'.",
 "C113": "The list of calls ends with the end of the file. gc-random asks in the same way; only gc-clean is stated.",
 "C115": "All commands that change a graph, from every state of the file system, also killed and with failing calls; sessions in any number of directories. Two examples show that directories inside of .graph or named lock are excluded for a reason.",
 "C116": "All words, all eleven binaries (and any sensible declarations). The parser models clap 2.33.0 from knowledge of it; the grammar in Spec/Cli.lean is independent of the parser. C116_told_*: when clap answers with the help text or the version. C116_one_action: exactly one action of gc-cycle.",
 "C117": "One directory; other directories: C115. gc-random with the graph it generated as an input.",
 "C118": "False of the code; the counterexamples are statements about all command lines (and graphs). What holds: with an equality sign every value can be given.",
 "C119": "Texts printed on standard output, byte for byte, exit codes and stored graphs. What clap prints for help and version is an input. Nothing is claimed about the text of gc-short-path on graphs with 2^63 vertices or more. The disk works and standard output is open; failures are in C104 to C107 and C109. C119_ends_csp_nothing: when gc-csp answers although nothing meets its options.",
 "C120": "Proved: the vertex iterators, gc-short-path and topological_sort need at most one round per vertex (plus two), path iterators one round per simple path. False of gc-csp without constraints, max_flow, all actions of gc-cycle and the search for hamiltonian paths: on chains of n diamonds (3n+1 vertices, 4n edges, no cycle; C120_diamonds: they can be built for every n) they need more than 2^n rounds. Rounds of loops are counted, not time; loops over lists known beforehand are not counted.",
 "C121": "Bounds on rounds of loops for every graph. max_flow: max(edges, simple paths from the start) + 1, for start ≠ end, whether it returns or overflows. gc-csp: for every answer it returns. gc-cycle: all actions and options. Rounds are counted, not time; loops over lists known beforehand are not counted.",
 "C12": "Both formats: gcmd and TGF (C12_tgf_*).",
 "C20": "C20_prunes_exactly: for the constraints that can be given on the command line (C23_options_are_simple) a path is rejected exactly when no longer path satisfies the constraint. C20_check_meaning says what a partial check answers.",
 "C122": "Proved for all binaries but gc-build, whose option --verbose is always on (C118). The numbers of values are not in README.md and are specified as in the code.",
 "C123": "Proved for all commands and sessions (Model/DiskSession.lean), in terms of the same session without a limit (Store.session). C123_is_fault: these runs are among those of Model/Faults.lean, so C106 and C107 apply. What the loaded graph is when a line was cut off is C88 and C91.",
 "C129": "The value of max_flow and the number of cycles listed depend on the order in which the hash map iterates, so they differ between graphs that are the same up to names (C129_counterexample); C129_max_flow_partial and C129_cycles_partial give the cases in which they agree. Everything else is proved in full.",
 "C130": "False for topological_sort with self-loops, for the list of cycles and for max_flow (C130_counterexample); the partial theorems give the cases in which it holds. Everything else is proved in full.",
 "C131": "False for max_flow and the list of cycles: one more edge can lower the value or empty the list (C131_counterexample); the partial theorems give the cases in which it holds. Everything else is proved in full.",
 "C132": "False: nothing waits for the disk, so a successful gc-add can be lost and a successful gc-build can lose the old graph too (C132_counterexample). The partial theorems say what is left when changes reach the disk in order.",
 "C137": "False for dag_shortest_paths: a vertex that cannot be reached can make it panic (C137_counterexample); C137_dag_partial gives the same scores if it returns in both graphs. For bellman_ford and spfa with sums of weights outside i64 the statement is about runs that return. Everything else is proved in full.",
 "C143": "True for order, repetition and the laws of Or, And and Xor (constrained search), for any two lists with the same meaning (gc-cycle) and for order (validate). False of the code otherwise: pruning does not look below Not except at a single ContainsVertex, ContainsEdge or ContainsCycle, so a double negation can make a search run forever (C143_counterexample); validate does not look into And (C143_validate_counterexample)."
}