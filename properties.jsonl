{"id": "C01", "title": "Mutation histories behave like a set-based digraph", "statement": "After any sequence of AddVertex/RemoveVertex/AddEdge/RemoveEdge operations on a new graph, contains_vertex and contains_edge answer exactly as a mathematical digraph (vertex set + edge set) would: adding an edge adds its endpoints, removing a vertex removes exactly its incident edges, removing an edge keeps its endpoints.", "quantifier": "every finite sequence of graph commands, every vertex and edge, every hash-map iteration order", "why_tests_cant": "histories are unbounded; tests sample a handful of them", "anchors": ["core/src/directed_graph.rs: DirectedGraph::{new,add_vertex,remove_vertex,add_edge,remove_edge,contains_vertex,contains_edge}", "core/src/graph_command.rs: GraphCommand::apply_commands"]}
{"id": "C02", "title": "Listings are complete, duplicate free and closed", "statement": "vertices() lists exactly the contained vertices and edges() exactly the contained edges, each once, and both endpoints of every listed edge are listed vertices; vertex_count is the number of vertices.", "quantifier": "every graph reachable through the public API and every hash-map iteration order", "why_tests_cant": "the invariant of the doubled edge index must survive every interleaving of operations", "anchors": ["core/src/directed_graph.rs: DirectedGraph::{vertices,edges,vertex_count,is_empty}"]}
{"id": "C03", "title": "Neighbour queries and degrees are exact", "statement": "outbound_edges(v) is exactly the set of contained edges leaving v, inbound_edges(v) exactly those entering v, each once (also for vertices that are absent: empty), and degree_out/degree_in are their counts.", "quantifier": "every reachable graph, every vertex id", "why_tests_cant": "depends on the whole operation history", "anchors": ["core/src/directed_graph.rs: DirectedGraph::{outbound_edges,inbound_edges,degree_out,degree_in}"]}
{"id": "C04", "title": "edge_count is the number of edges", "statement": "edge_count() equals the number of edges listed by edges().", "quantifier": "every reachable graph", "why_tests_cant": "a test with no self-loop cannot see that loops are indexed once but halved", "anchors": ["core/src/directed_graph.rs: DirectedGraph::edge_count"]}
{"id": "C05", "title": "Mutators report what they did", "statement": "add_edge returns true exactly when the edge was absent; remove_vertex returns true exactly when the vertex was present; add_vertex returns true exactly when the vertex was already present; remove_edge always returns true.", "quantifier": "every reachable graph and argument", "why_tests_cant": "return values depend on the full history", "anchors": ["core/src/directed_graph.rs: DirectedGraph::{add_vertex,remove_vertex,add_edge,remove_edge}"]}
{"id": "C06", "title": "Commands are idempotent", "statement": "Applying any graph command twice in a row gives the same vertices and edges as applying it once.", "quantifier": "every graph command, every reachable graph", "why_tests_cant": "quantifies over all graphs and commands", "anchors": ["core/src/graph_command.rs: GraphCommand::apply_to"]}
{"id": "C07", "title": "as_commands rebuilds the graph", "statement": "Applying GraphCommand::as_commands(g) to a new graph produces a graph with the same vertices and edges as g.", "quantifier": "every reachable graph and iteration order", "why_tests_cant": "all graphs", "anchors": ["core/src/graph_command.rs: GraphCommand::{as_commands,apply_commands}"]}
{"id": "C08", "title": "revert undoes a command", "statement": "revert is an involution, and applying a command followed by its revert restores the vertices and edges whenever the command changed something.", "quantifier": "every command, every reachable graph", "why_tests_cant": "tests cannot cover removed vertices with arbitrary incident edges", "anchors": ["core/src/graph_command.rs: GraphCommand::revert"]}
{"id": "C09", "title": "gcmd save/read round-trip", "statement": "Reading a file written by gcmd::save yields a graph with the same vertices and edges.", "quantifier": "every reachable graph, every u64 id, every iteration order", "why_tests_cant": "all ids and all graphs", "anchors": ["core/src/format/gcmd.rs: save, read", "core/src/format/utils.rs: read"]}
{"id": "C10", "title": "tgf save/read round-trip", "statement": "Reading a file written by tgf::save yields a graph with the same vertices and edges.", "quantifier": "every reachable graph, every u64 id", "why_tests_cant": "all ids and all graphs", "anchors": ["core/src/format/tgf.rs: save, read"]}
{"id": "C11", "title": "Command lines are faithfully encoded", "statement": "The line written for a command parses back to that command, so two different commands never share a line, and a line parses exactly when it follows the documented grammar.", "quantifier": "every command; every line of text", "why_tests_cant": "infinite set of lines and ids", "anchors": ["core/src/format/gcmd.rs: parse_line, command_into_line"]}
{"id": "C12", "title": "Files are read in order, comments skipped, first error located", "statement": "read_as_commands returns the commands of all non-empty, non-comment lines in file order, or an error naming the 1-based number of the first line that cannot be parsed.", "quantifier": "every text file", "why_tests_cant": "arbitrary file contents", "anchors": ["core/src/format/utils.rs: read_as_commands, read", "core/src/format/gcmd.rs: is_comment"]}
{"id": "C13", "title": "Reading a text file never panics", "statement": "read / read_as_commands answer Ok or Err on every text file.", "quantifier": "every text file", "why_tests_cant": "arbitrary digit strings (overflow, non-ASCII digits)", "anchors": ["core/src/format/gcmd.rs: parse_line", "core/src/format/tgf.rs: parse_line"]}
{"id": "C14", "title": "Appending commands extends the stored graph", "statement": "After add_commands(cs) on an existing newline-terminated command file, loading gives the previously stored graph with cs applied, in order; nothing already stored is lost.", "quantifier": "every stored file, every list of commands", "why_tests_cant": "all histories of CLI mutations", "anchors": ["core/src/format/gcmd.rs: add_commands", "command/src/graph_utils.rs: apply_graph_commands, load_graph"]}
{"id": "C15", "title": "A crash while appending never invents data", "statement": "If the process dies while add_commands is writing, loading the file yields the graph after some prefix of the commands.", "quantifier": "every file, every command list, every byte offset at which writing stops", "why_tests_cant": "every crash point", "anchors": ["core/src/format/gcmd.rs: add_commands"]}
{"id": "C16", "title": "TGF labels are ignored", "statement": "A TGF line consisting of an id followed by a label adds exactly that vertex; a line of two ids followed by a label adds exactly that edge.", "quantifier": "every id and label text", "why_tests_cant": "labels are arbitrary text", "anchors": ["core/src/format/tgf.rs: parse_line"]}
{"id": "C17", "title": "gc-build preserves the graph", "statement": "gc-build rewrites the command file so that loading it again gives the same vertices and edges, and a crash during the rewrite loses nothing.", "quantifier": "every stored graph, every crash point", "why_tests_cant": "all graphs and crash points", "anchors": ["command/src/bin/gc-build.rs: main", "command/src/graph_utils.rs: load_graph, save_graph_as_commands"]}
{"id": "C18", "title": "Path queries", "statement": "contains_vertex, contains_edge, contains_cycle and to_edge_list describe membership, consecutive pairs, repeated vertices and all consecutive pairs; append adds exactly one vertex at the end.", "quantifier": "every path", "why_tests_cant": "all paths", "anchors": ["core/src/path.rs: Path"]}
{"id": "C19", "title": "Complete-path constraint checking implements the documented meaning", "statement": "check_complete of every constraint expression equals its logical meaning (membership, edge membership, cycle, bounds and the or/xor/and/not connectives).", "quantifier": "every constraint expression and scored path", "why_tests_cant": "recursive expressions of any depth", "anchors": ["core/src/constraint/constraint.rs: Constraint::check_complete"]}
{"id": "C20", "title": "Partial checking never prunes a solution", "statement": "If check_partial rejects a path then no extension whose score is at least as large satisfies check_complete.", "quantifier": "every constraint expression, every path and every extension", "why_tests_cant": "quantifies over all future extensions", "anchors": ["core/src/constraint/constraint.rs: Constraint::check_partial"]}
{"id": "C21", "title": "Ordered-vertices constraint", "statement": "OrderedVertices(l) holds exactly when the listed vertices that occur in the path occur in the listed order (every earlier occurrence has an index not larger than a later one); listed vertices may be missing.", "quantifier": "every list and path", "why_tests_cant": "all lists and paths", "anchors": ["core/src/constraint/constraint.rs: Constraint::check_vertices_order"]}
{"id": "C22", "title": "validate accepts compatible constraints and rejects only contradictory ones", "statement": "validate returns Err only for constraint lists that no path can satisfy (apart from the documented duplicate min/max rule), and Ok lists have none of the listed contradictions.", "quantifier": "every constraint list", "why_tests_cant": "all lists", "anchors": ["core/src/constraint/checker.rs: validate"]}
{"id": "C23", "title": "Command-line constraint options mean what they say", "statement": "include/exclude/ordered/include-cycle/no-cycle/min-/max-/exact-length/score options restrict results exactly as documented, in any combination.", "quantifier": "every combination of option values and every candidate path", "why_tests_cant": "all combinations", "anchors": ["command/src/arg_utils.rs: build_constraint_*", "command/src/bin/gc-csp.rs: build_all_constraints", "command/src/bin/gc-cycle.rs: build_all_constraints"]}
{"id": "C24", "title": "Depth-first iteration visits exactly the reachable vertices once", "statement": "dfs_iter_from(g, s) terminates, never panics and yields every vertex reachable from s exactly once, s first.", "quantifier": "every reachable graph, every start vertex", "why_tests_cant": "termination and completeness over all graphs", "anchors": ["core/src/iter/iter_depth.rs: DepthFirstIter, dfs_iter_from, dfs_iter"]}
{"id": "C25", "title": "Breadth-first iteration visits exactly the reachable vertices once, nearest first", "statement": "bfs_iter_from(g, s) terminates and yields every vertex reachable from s exactly once in non-decreasing distance from s.", "quantifier": "every reachable graph, every start vertex", "why_tests_cant": "all graphs", "anchors": ["core/src/iter/iter_breadth.rs: BreadthFirstIter, bfs_iter_from, bfs_iter"]}
{"id": "C26", "title": "Depth-first order", "statement": "The order produced by dfs_iter_from is a depth-first (preorder) order of the graph.", "quantifier": "every reachable graph, every start vertex", "why_tests_cant": "only graphs with particular cross edges expose the difference", "anchors": ["core/src/iter/iter_depth.rs: DepthFirstIter::next"]}
{"id": "C27", "title": "Depth-first path iteration enumerates every simple path once", "statement": "dfs_iter_path_from(g, s) terminates and yields exactly the simple paths starting at s, each exactly once.", "quantifier": "every reachable graph, every start vertex", "why_tests_cant": "combinatorially many paths", "anchors": ["core/src/iter/iter_depth.rs: DepthFirstPathIter, dfs_iter_path_from"]}
{"id": "C28", "title": "Breadth-first path iteration enumerates every simple path once, shortest first", "statement": "bfs_path_iter_from(g, s) terminates and yields exactly the simple paths starting at s, each once, in non-decreasing length.", "quantifier": "every reachable graph, every start vertex", "why_tests_cant": "combinatorially many paths", "anchors": ["core/src/iter/iter_breadth.rs: BreadthFirstPathIter, bfs_path_iter_from"]}
{"id": "C29", "title": "Best-first iteration reaches every reachable vertex once", "statement": "best_iter_from(g, f, s) terminates for every scoring function and yields one valid path per reachable vertex, scored by f.", "quantifier": "every reachable graph, scoring function, start vertex and heap tie-breaking", "why_tests_cant": "all scoring functions and tie-breaks", "anchors": ["core/src/iter/iter_best.rs: BestFirstIter, best_iter_from"]}
{"id": "C30", "title": "Search queues keep their discipline", "statement": "For any sequence of pushes and pops, Stack is LIFO, Queue is FIFO, MinPriorityQueue pops a smallest and MaxPriorityQueue a largest stored element, and nothing is lost or duplicated.", "quantifier": "every operation sequence", "why_tests_cant": "all sequences", "anchors": ["core/src/iter/iter_datastructure.rs: Stack, Queue, MinPriorityQueue, MaxPriorityQueue"]}
{"id": "C31", "title": "Constrained best-first iteration produces exactly the unpruned walks", "statement": "constrained_best_iter_from yields only walks of the graph from the start whose proper extensions all passed the partial checks, in non-decreasing score for monotone scores, and never skips such a walk for ever.", "quantifier": "every reachable graph, constraint list, scoring function, start vertex", "why_tests_cant": "infinite streams of walks", "anchors": ["core/src/iter/iter_best_constraint.rs: ConstrainedBestFirstIter"]}
{"id": "C32", "title": "shortest_path finds a path exactly when one exists", "statement": "a_star::shortest_path returns a genuine path from start to end, carrying the score of that path, and returns None exactly when end is not reachable from start.", "quantifier": "every reachable graph, cost and heuristic functions, endpoints", "why_tests_cant": "all graphs and functions", "anchors": ["core/src/search/a_star.rs: shortest_path"]}
{"id": "C33", "title": "gc-short-path is optimal", "statement": "With the unit edge weights used by gc-short-path the returned path has the minimum number of edges and its score is that number.", "quantifier": "every reachable graph, endpoints and heap tie-breaking", "why_tests_cant": "all graphs, all tie-breaks", "anchors": ["core/src/search/a_star.rs: shortest_path, one_weighted_edge, zero_heuristic", "command/src/bin/gc-short-path.rs: shortest_path"]}
{"id": "C34", "title": "A* is optimal for admissible consistent heuristics", "statement": "For non-negative additive costs and a consistent heuristic, shortest_path returns a path of minimum cost.", "quantifier": "every graph, cost function, consistent heuristic", "why_tests_cant": "particular weights expose early closing of vertices", "anchors": ["core/src/search/a_star.rs: shortest_path", "core/src/iter/iter_best.rs: BestFirstIter::next"]}
{"id": "C35", "title": "Constrained search returns only valid answers", "statement": "constrained_shortest_path returns a walk of the graph from start to end that satisfies every constraint.", "quantifier": "every graph, functions, constraints, endpoints", "why_tests_cant": "all constraint combinations", "anchors": ["core/src/search/a_star.rs: constrained_shortest_path"]}
{"id": "C36", "title": "Constrained search is optimal", "statement": "For monotone scores the returned walk has the smallest score among all walks from start to end satisfying all constraints.", "quantifier": "every graph, monotone scoring, constraints, endpoints", "why_tests_cant": "infinitely many competing walks", "anchors": ["core/src/search/a_star.rs: constrained_shortest_path"]}
{"id": "C37", "title": "Constrained search terminates", "statement": "gc-csp (unit weights) returns a solution whenever one exists, and answers 'not reachable' when none exists.", "quantifier": "every graph, constraints, endpoints", "why_tests_cant": "non-termination cannot be observed by a test", "anchors": ["core/src/search/a_star.rs: constrained_shortest_path", "command/src/bin/gc-csp.rs: shortest_path_with_constraints"]}
{"id": "C38", "title": "topological_sort output is a topological order", "statement": "When topological_sort returns an order it contains every vertex exactly once and every edge goes from an earlier to a later vertex.", "quantifier": "every reachable graph and iteration order", "why_tests_cant": "all graphs", "anchors": ["core/src/algorithm/topo_sort.rs: topological_sort"]}
{"id": "C39", "title": "topological_sort succeeds exactly on acyclic graphs", "statement": "topological_sort / is_dag / try_dag succeed if and only if the graph has no directed cycle.", "quantifier": "every reachable graph and iteration order", "why_tests_cant": "all graphs, in particular self-loops", "anchors": ["core/src/algorithm/topo_sort.rs: topological_sort, is_dag, try_dag"]}
{"id": "C40", "title": "DAG shortest paths are correct", "statement": "When dag_shortest_paths returns, its keys are exactly the vertices reachable from start, and each entry is a genuine path of minimum total weight carrying that weight.", "quantifier": "every DAG, weight function, start vertex", "why_tests_cant": "all DAGs and weights", "anchors": ["core/src/algorithm/shortest_path.rs: dag_shortest_paths, dag_shortest_path"]}
{"id": "C41", "title": "DAG shortest paths never panic", "statement": "dag_shortest_paths returns for every DAG and start vertex when weights are small enough not to overflow.", "quantifier": "every DAG, weight function, start vertex, iteration order", "why_tests_cant": "depends on hash iteration order of unreachable vertices", "anchors": ["core/src/algorithm/shortest_path.rs: dag_shortest_paths"]}
{"id": "C42", "title": "DAG longest paths are correct", "statement": "When dag_longest_paths returns, its keys are exactly the reachable vertices and each entry is a genuine path of maximum total weight carrying that weight.", "quantifier": "every DAG, weight function, start vertex", "why_tests_cant": "all DAGs", "anchors": ["core/src/algorithm/longest_path.rs: dag_longest_paths, dag_longest_path"]}
{"id": "C43", "title": "Bellman-Ford is exact", "statement": "When bellman_ford returns Some, the keys are exactly the vertices reachable from start and each entry is a genuine walk of minimum total weight carrying that weight.", "quantifier": "every reachable graph, integer weights with |weight| times the number of vertices below i64::MAX, start vertex", "why_tests_cant": "all graphs with negative weights", "anchors": ["core/src/algorithm/shortest_path.rs: bellman_ford"]}
{"id": "C44", "title": "Bellman-Ford detects negative cycles", "statement": "bellman_ford returns None exactly when a cycle of negative weight is reachable from start.", "quantifier": "every reachable graph, integer weights with |weight| times the number of vertices below i64::MAX, start vertex", "why_tests_cant": "all graphs", "anchors": ["core/src/algorithm/shortest_path.rs: bellman_ford"]}
{"id": "C45", "title": "SPFA terminates exactly without reachable negative cycles and is exact", "statement": "spfa returns if and only if no negative-weight cycle is reachable from start, and its result is the map of exact shortest walks.", "quantifier": "every reachable graph, weights with |weight| times the number of vertices below i64::MAX, start vertex", "why_tests_cant": "termination", "anchors": ["core/src/algorithm/shortest_path.rs: spfa"]}
{"id": "C46", "title": "Shortest path algorithms agree", "statement": "On every input where they return, dag_shortest_paths, bellman_ford and spfa report the same vertices with the same scores; with unit weights these equal the gc-short-path cost.", "quantifier": "every graph and weights with |weight| times the number of vertices below i64::MAX", "why_tests_cant": "all inputs", "anchors": ["core/src/algorithm/shortest_path.rs", "core/src/search/a_star.rs"]}
{"id": "C47", "title": "Hamiltonian path enumeration", "statement": "iter_hamiltonian_paths yields exactly the paths visiting every vertex once, each once; is_hamiltonian answers true exactly when such a path exists or the graph is empty; first_path returns one of them.", "quantifier": "every reachable graph and iteration order", "why_tests_cant": "combinatorially many paths", "anchors": ["core/src/algorithm/hamiltonian.rs"]}
{"id": "C48", "title": "Cycle enumeration is sound", "statement": "cycle_iter terminates and yields only genuine simple cycles of the graph, in canonical form, pairwise distinct (no two are rotations of each other).", "quantifier": "every reachable graph and iteration order", "why_tests_cant": "combinatorially many cycles", "anchors": ["core/src/iter/iter_cycle.rs: CycleIter, cycle_iter"]}
{"id": "C49", "title": "Cycle enumeration is complete", "statement": "cycle_iter yields every simple cycle of the graph.", "quantifier": "every reachable (connected) graph and iteration order", "why_tests_cant": "graphs whose cycles are not reachable from the chosen roots", "anchors": ["core/src/iter/iter_cycle.rs: cycle_iter, find_starting_edges"]}
{"id": "C50", "title": "Cycle queries", "statement": "first, count, take, take_all, girth, shortest and longest report the first, number, prefix, all, minimal length, a shortest and a longest of the enumerated cycles.", "quantifier": "every reachable graph", "why_tests_cant": "all graphs", "anchors": ["core/src/algorithm/cycle.rs"]}
{"id": "C51", "title": "Hamiltonian cycle search", "statement": "cycle::hamiltonian returns a cycle through all vertices exactly when one exists.", "quantifier": "every reachable graph and iteration order", "why_tests_cant": "all graphs", "anchors": ["core/src/algorithm/cycle.rs: hamiltonian"]}
{"id": "C52", "title": "Canonical cycles", "statement": "canonical is a rotation that starts with the smallest vertex, is idempotent, and two duplicate-free cycles have equal canonical forms exactly when one is a rotation of the other; is_canonical recognises exactly the canonical forms; from_vertices accepts exactly duplicate-free lists of at least two vertices.", "quantifier": "every cycle", "why_tests_cant": "all cycles", "anchors": ["core/src/iter/iter_cycle.rs: Cycle"]}
{"id": "C53", "title": "gc-cycle filters", "statement": "gc-cycle reports exactly the enumerated cycles matching the vertex, edge and length constraints, where the edges of a cycle include the closing edge.", "quantifier": "every cycle and constraint list", "why_tests_cant": "all cycles", "anchors": ["command/src/bin/gc-cycle.rs: check", "core/src/iter/iter_cycle.rs: Cycle::as_path"]}
{"id": "C54", "title": "max_flow returns a feasible flow of the reported value", "statement": "The returned per-edge flows respect capacities, are conserved at every vertex other than start and end, and the reported value is the net flow out of start and into end.", "quantifier": "every reachable graph, capacities, start different from end", "why_tests_cant": "all networks", "anchors": ["core/src/algorithm/max_flow.rs: max_flow"]}
{"id": "C55", "title": "max_flow is maximum", "statement": "The reported value is the maximum value of a feasible flow (equals the minimum cut).", "quantifier": "every reachable graph and capacities", "why_tests_cant": "needs networks where flow must be rerouted", "anchors": ["core/src/algorithm/max_flow.rs: max_flow, AugmentingPathIter"]}
{"id": "C56", "title": "max_flow terminates without panicking", "statement": "max_flow returns for every graph, capacity function and pair of vertices (no overflow of the total).", "quantifier": "every graph, capacities, start and end", "why_tests_cant": "termination; start = end", "anchors": ["core/src/algorithm/max_flow.rs: max_flow, residual_capacity"]}
{"id": "C57", "title": "gc-add shapes", "statement": "chain, cycle, star, clique and reverse produce exactly the edges between consecutive vertices, consecutive plus closing, first to others, all ordered pairs of distinct positions, and swapped pairs.", "quantifier": "every vertex list", "why_tests_cant": "all lists", "anchors": ["command/src/bin/gc-add.rs"]}
{"id": "C58", "title": "Argument lists are parsed all-or-nothing", "statement": "parse_vertex_id_list accepts a list exactly when every item is a u64 literal and returns their values in order; edge lists additionally need an even number of items and are paired in order.", "quantifier": "every list of argument strings", "why_tests_cant": "all strings", "anchors": ["command/src/arg_utils.rs: parse_vertex_id, parse_vertex_id_list, as_vertex_tuple, parse_edge_list"]}
{"id": "C59", "title": "Invalid constraint options are not silently dropped", "statement": "gc-csp / gc-cycle reject or honour every constraint option that is given.", "quantifier": "every option string", "why_tests_cant": "arbitrary strings", "anchors": ["command/src/bin/gc-csp.rs: main", "command/src/bin/gc-cycle.rs: main"]}
{"id": "C60", "title": "gc-random builds a DAG with the requested size", "statement": "Every graph generated by gc-random is acyclic, has at least the requested number of edges, and the requested number of vertices; generation terminates.", "quantifier": "every sequence of random numbers, every requested size", "why_tests_cant": "randomness cannot be enumerated", "anchors": ["command/src/bin/gc-random.rs: creates_random_dag"]}
{"id": "C61", "title": "The lock gives mutual exclusion", "statement": "At most one process at a time executes the block of with_lock on the same directory.", "quantifier": "every interleaving of any number of processes", "why_tests_cant": "every schedule", "anchors": ["command/src/graph_utils.rs: lock, unlock, with_lock"]}
{"id": "C62", "title": "The lock is always released", "statement": "After with_lock returns in an undisturbed process the graph is unlocked, whatever the block returned, and the block's result is reported.", "quantifier": "every block and file-system state", "why_tests_cant": "all blocks and failures", "anchors": ["command/src/graph_utils.rs: with_lock, is_locked"]}
{"id": "C63", "title": "Concurrent additions are never lost", "statement": "When several processes append commands concurrently, the final file contains every batch exactly once, in some serial order, for every schedule.", "quantifier": "every interleaving of any number of writers", "why_tests_cant": "every schedule", "anchors": ["command/src/graph_utils.rs: apply_graph_commands", "core/src/format/gcmd.rs: add_commands"]}
{"id": "C64", "title": "gc-init is idempotent and non-destructive; gc-clean removes the graph", "statement": "gc-init on a directory makes an empty graph if none exists and keeps an existing graph; gc-clean removes the stored graph and nothing else, leaving it unlocked; init after clean gives the empty graph.", "quantifier": "every file-system state", "why_tests_cant": "all states and command sequences", "anchors": ["command/src/graph_utils.rs: init, clean"]}
{"id": "C65", "title": "CLI mutations report failure", "statement": "gc-add / gc-delete on a directory without an initialised graph do not report success.", "quantifier": "every file-system state and argument list", "why_tests_cant": "error paths are swallowed by Option::map", "anchors": ["command/src/bin/gc-add.rs: main", "command/src/bin/gc-delete.rs: main"]}
{"id": "C66", "title": "Attribute mappings behave like finite maps", "statement": "After any sequence of attribute commands, lookup returns the last added value not removed since, remove reports whether something was removed, commands for the other kind are ignored, and default closures return the default exactly for unmapped keys.", "quantifier": "every command sequence", "why_tests_cant": "unbounded histories", "anchors": ["core/src/attribute/mapping.rs", "core/src/attribute/attribute_command.rs"]}
{"id": "C67", "title": "gc-desc reports the real extremes and counts", "statement": "The reported vertex and edge counts and minimum/maximum ids are those of the stored graph, '-' exactly for the empty graph.", "quantifier": "every stored graph", "why_tests_cant": "all graphs", "anchors": ["command/src/bin/gc-desc.rs: main"]}
{"id": "C68", "title": "gc-add is all or nothing", "statement": "If gc-add fails because of an invalid argument, the stored graph is unchanged.", "quantifier": "every argument list and file-system state", "why_tests_cant": "all combinations of options and failures", "anchors": ["command/src/bin/gc-add.rs: main"]}
{"id": "C69", "title": "gc-delete removes exactly the named vertices and edges", "statement": "A successful gc-delete on a stored graph removes the given vertices with all incident edges and the given edges, and nothing else, and leaves other files unchanged.", "quantifier": "every stored graph and argument list", "why_tests_cant": "all graphs and arguments", "anchors": ["command/src/bin/gc-delete.rs: main", "command/src/graph_utils.rs: remove_vertices, remove_edges"]}
{"id": "C70", "title": "Additions made while gc-build runs are not lost", "statement": "When gc-build rewrites the stored graph while other processes add commands, every addition that reports success is part of the stored graph afterwards.", "quantifier": "every interleaving of gc-build with any number of additions", "why_tests_cant": "every schedule", "anchors": ["command/src/bin/gc-build.rs: main", "command/src/graph_utils.rs: apply_graph_commands, save_graph_as_commands"]}
{"id": "C71", "title": "gc-topo-sort prints a topological order exactly for acyclic graphs", "statement": "Run on a directory with a stored graph, gc-topo-sort prints every vertex once, every edge going from an earlier to a later vertex; for a graph with a cycle it prints that the graph is not a DAG; without a readable stored graph it fails.", "quantifier": "every stored graph and hash iteration order", "why_tests_cant": "all graphs and all iteration orders", "anchors": ["command/src/bin/gc-topo-sort.rs: main"]}
{"id": "C72", "title": "gc-short-path prints a shortest path", "statement": "For two vertex ids and a stored graph, gc-short-path prints a path between them with the fewest edges, one id per line, and this number of edges; or, exactly if there is none, that the end is not reachable. Other arguments or a missing graph make it fail.", "quantifier": "every stored graph, pair of arguments, hash iteration order and lawful heap", "why_tests_cant": "all graphs and arguments", "anchors": ["command/src/bin/gc-short-path.rs: main"]}
{"id": "C73", "title": "gc-csp prints a shortest walk that meets its options", "statement": "For two vertex ids, any options and a stored graph, gc-csp ends and prints a walk with the fewest edges that meets the options as the help text explains them, or, exactly if there is none, that there is none.", "quantifier": "every stored graph, argument list, hash iteration order and lawful heap", "why_tests_cant": "all graphs and option combinations; termination", "anchors": ["command/src/bin/gc-csp.rs: main, build_all_constraints, shortest_path_with_constraints"]}
{"id": "C74", "title": "gc-cycle reports about the cycles of the stored graph", "statement": "Run on a directory with a stored graph, gc-cycle --all prints every cycle of the graph once, --count their number, --hamiltonian a cycle through all vertices or N/A if there is none; the answer depends on the stored graph only.", "quantifier": "every stored graph and hash iteration order", "why_tests_cant": "all graphs and all iteration orders", "anchors": ["command/src/bin/gc-cycle.rs: main"]}
{"id": "C75", "title": "Sessions of commands compose", "statement": "For every sequence of gc-init, gc-add, gc-delete, gc-build, gc-clean and gc-random runs in one directory, whatever their arguments and whether or not some of them fail, the exit codes and the graph that is stored in the end are those obtained by executing the documented meaning of each command on a set of vertices and a set of edges; no file outside .graph is touched (except the lock file).", "quantifier": "all finite sequences of commands with all arguments, all prompts' answers, all hash iteration orders, all initial file systems in which the directory is usable", "why_tests_cant": "A test runs a handful of short scripts; the property is an invariant over histories of unbounded length including failing commands.", "anchors": ["command/src/graph_utils.rs: init, clean, apply_graph_commands, with_lock, load_graph, save_graph_as_commands", "command/src/bin/gc-init.rs", "command/src/bin/gc-add.rs", "command/src/bin/gc-delete.rs", "command/src/bin/gc-build.rs", "command/src/bin/gc-clean.rs", "command/src/bin/gc-random.rs"]}
{"id": "C76", "title": "gc-build and gc-init are neutral", "statement": "Inserting a gc-build or a gc-init anywhere in a session at a point where a graph is stored changes neither the graph stored at the end nor the exit codes of the later commands.", "quantifier": "all sessions, all positions, all hash iteration orders", "why_tests_cant": "The compacted file differs from the original; that no later command can tell is a claim about all continuations.", "anchors": ["command/src/bin/gc-build.rs", "command/src/bin/gc-init.rs", "core/src/format/gcmd.rs: save"]}
{"id": "C77", "title": "Additions commute, are idempotent and can be undone", "statement": "Two valid gc-add commands may be run in either order with the same resulting graph; repeating a valid gc-add changes nothing; deleting edges that were added and were not there before restores the set of edges.", "quantifier": "all stored graphs, all valid arguments", "why_tests_cant": "Algebraic laws over all graphs and all argument lists.", "anchors": ["command/src/bin/gc-add.rs", "command/src/bin/gc-delete.rs", "core/src/graph_command.rs"]}
{"id": "C78", "title": "Queries that run during additions see whole batches", "statement": "While other processes add batches of at most 8192 bytes each, a query loads the old graph with whole batches applied one after the other, never a part of a batch; all batches whose command returned before the query began are among them; a later query sees everything an earlier one saw; every query is answered after finitely many of its own steps.", "quantifier": "all numbers of adding and reading processes, all schedules at system call granularity, all stored graphs and batches up to 8192 bytes", "why_tests_cant": "A statement about all interleavings of reads and writes.", "anchors": ["command/src/graph_utils.rs: load_graph, apply_graph_commands", "core/src/format/gcmd.rs: add_commands", "core/src/format/utils.rs: read_as_commands"]}
{"id": "C79", "title": "An addition of any size is stored command by command", "statement": "While one process adds a batch of commands of any size, at every point, also if the process is killed there, the stored graph is the old one with a beginning of the batch applied, and the whole batch once the command returned. Queries that run at the same time load such a graph, with at least the commands stored when they began, and every query is answered.", "quantifier": "all batch sizes, all schedules and kill points at system call granularity, any number of concurrent queries, all stored graphs", "why_tests_cant": "All kill points of all batches, all interleavings with readers.", "anchors": ["core/src/format/gcmd.rs: add_commands", "command/src/graph_utils.rs: apply_graph_commands, load_graph", "core/src/format/utils.rs: read_as_commands"]}
{"id": "C80", "title": "Queries that run during gc-build see the stored graph", "statement": "A query that runs while gc-build rewrites the command file loads the stored graph; a gc-build that is killed loses nothing.", "quantifier": "all schedules and kill points at system call granularity, any number of concurrent queries, all stored graphs, all hash iteration orders", "why_tests_cant": "All interleavings of reads with the truncation and the writes.", "anchors": ["command/src/bin/gc-build.rs: main", "core/src/format/gcmd.rs: save", "command/src/graph_utils.rs: load_graph"]}
{"id": "C81", "title": "The output of gc-csp is unambiguous", "statement": "Two runs of gc-csp that print the same text applied the same constraints in the same order, searched between the same vertices and got the same answer.", "quantifier": "all options, arguments, stored graphs and heap implementations; nested constraints of any depth", "why_tests_cant": "Ranges over pairs of runs with unbounded constraint lists and paths.", "anchors": ["command/src/bin/gc-csp.rs: main, shortest_path_with_constraints, build_all_constraints", "core/src/constraint/constraint.rs: Constraint (Debug)"]}
{"id": "C82", "title": "Answers depend only on the graph", "statement": "Two graphs with the same vertices and edges, however they were built and in whatever order their hash maps are iterated, give the same answer to contains/degree/count queries, the same set of paths from the iterators, the same shortest path cost (gc-short-path, gc-csp), agree on whether a topological order exists, on Bellman-Ford and SPFA distances and negative cycle detection, and on the existence of Hamiltonian paths and cycles.", "quantifier": "all pairs of graphs with the same vertices and edges, all histories, all hash iteration orders and heap implementations", "why_tests_cant": "RandomState seeds differ between runs; a test sees one of exponentially many orders.", "anchors": ["core/src/directed_graph.rs: DirectedGraph", "core/src/algorithm/*", "core/src/iter/*"]}
{"id": "C83", "title": "max_flow, cycle listing and DAG distances depend only on the graph", "statement": "For the same vertices and edges, max_flow gives the same value, the cycle listing finds the same cycles and dag_shortest_paths gives the same scores, whatever the hash iteration order.", "quantifier": "all pairs of graphs with the same vertices and edges, all hash iteration orders", "why_tests_cant": "As C82: the order of iteration is random per process.", "anchors": ["core/src/algorithm/max_flow.rs: max_flow", "core/src/algorithm/cycle.rs", "core/src/algorithm/shortest_path.rs: dag_shortest_paths"]}
{"id": "C84", "title": "Queries after any session answer about the graph of the history", "statement": "After any sequence of gc commands, gc-short-path, gc-csp, gc-topo-sort, gc-cycle --hamiltonian and gc-desc answer about the graph that the textbook meaning of the history describes; without an initialised graph they fail.", "quantifier": "all sessions of commands, all query arguments, hash iteration orders and heap implementations", "why_tests_cant": "Ranges over all histories of processes and their file contents.", "anchors": ["command/src/bin/*.rs: main", "command/src/graph_utils.rs: load_graph", "core/src/format/gcmd.rs"]}
{"id": "C85", "title": "Shortest paths when the graph changes", "statement": "Adding vertices or edges never lengthens the path found by gc-short-path and never disconnects, removing never shortens or connects; costs obey the triangle inequality and are 0 exactly from a vertex to itself; after adding the edge (x, y) the cost is the minimum of the old cost and cost(s, x) + 1 + cost(y, t).", "quantifier": "all graphs built by any history, all vertices and commands, different hash orders and heaps before and after", "why_tests_cant": "A relation between two runs on all graphs.", "anchors": ["core/src/search/a_star.rs: shortest_path", "command/src/bin/gc-short-path.rs", "core/src/directed_graph.rs: add_edge, remove_edge, add_vertex, remove_vertex"]}
{"id": "C86", "title": "First initialisation races with other commands", "statement": "When gc-init, additions and queries run at the same time in a directory that holds no graph yet, every gc-init that returns succeeds, no gc-init erases what another process added, an addition that returned success is stored whole, and a query reports that there is no graph or loads the graph of the batches stored so far.", "quantifier": "all sets of processes (gc-init, additions of at most 8192 bytes, queries), all schedules, with processes killed at any step, all file systems without a graph", "why_tests_cant": "Ranges over all interleavings and crash points of any number of processes.", "anchors": ["command/src/bin/gc-init.rs: main", "command/src/graph_utils.rs: init, touch, apply_graph_commands, load_graph"]}
{"id": "C87", "title": "gc-random makes graphs the queries recognise as DAGs", "statement": "After a successful gc-random, gc-topo-sort prints all vertices of the generated graph in an order in which every edge goes forward, gc-cycle --all prints nothing, gc-cycle --count prints 0, and gc-desc reports the numbers of vertices and edges of the generated graph, with at least as many edges as asked for.", "quantifier": "all streams of random numbers for which generation ends, all arguments, file systems with an initialised graph, hash iteration orders", "why_tests_cant": "Ranges over all random streams and sizes, across four programs communicating through the file.", "anchors": ["command/src/bin/gc-random.rs", "command/src/bin/gc-topo-sort.rs: main", "command/src/bin/gc-cycle.rs: main", "command/src/bin/gc-desc.rs: main"]}
{"id": "C88", "title": "Success means stored, also on a full disk", "statement": "If a mutation (gc-add, gc-delete, gc-build) ends with success, what it promised is stored; if the disk has no room, the failure is reported and no command is stored that nobody issued.", "quantifier": "all batches and graphs, all amounts of free space, all file systems with an initialised graph", "why_tests_cant": "All positions at which the space can run out; the error of the last buffered write is swallowed when the writer is dropped.", "anchors": ["core/src/format/gcmd.rs: add_commands, save", "command/src/graph_utils.rs: apply_graph_commands, save_graph_as_commands", "command/src/bin/gc-add.rs: main", "command/src/bin/gc-build.rs: main"]}
{"id": "C89", "title": "Equality of graphs", "statement": "== on graphs is an equivalence relation; graphs that are == have the same vertices, edges and neighbour lists; and graphs with the same vertices and edges are ==.", "quantifier": "all pairs and triples of graphs reachable by any history of mutations, all hash iteration orders", "why_tests_cant": "Ranges over all histories; equality compares adjacency lists whose order comes from the history, not from the graph.", "anchors": ["core/src/directed_graph.rs: DirectedGraph (derive PartialEq, Eq)"]}
{"id": "C90", "title": "Answers are reproducible", "statement": "Neighbours are listed in the order in which their edges were inserted. Traversals from a vertex, spfa, gc-short-path and gc-csp give the same answer (also among equally good ones) every time the same commands were run: the answer does not depend on the iteration order of the hash maps, and neither saving and reloading in either format nor additional runs of gc-build change it.", "quantifier": "all command histories and sessions, all hash iteration orders at each save and load, additional gc-build runs at any positions, all deterministic heaps, all start and end vertices and constraints", "why_tests_cant": "HashMap iteration order is randomised for each process: a test sees one order, the claim is about all of them.", "anchors": ["core/src/directed_graph.rs: outbound_edges, inbound_edges", "core/src/format/gcmd.rs: save, read", "core/src/format/tgf.rs: save, read", "command/src/bin/gc-build.rs: main", "command/src/bin/gc-short-path.rs: main", "command/src/bin/gc-csp.rs: main", "core/src/iter"]}
{"id": "C91", "title": "Commands recover from a crash", "statement": "After any commands were killed at any point, the directory is still usable: later commands work on the graph the killed command left, what they report as done is not lost, and gc-clean with gc-init always gives a fresh graph; nothing outside .graph is touched except the lock file.", "quantifier": "all sessions in which any command may be killed after any file system step or written byte", "why_tests_cant": "Ranges over all sessions and all kill points in them.", "anchors": ["command/src/graph_utils.rs: init, lock, unlock, with_lock, clean, apply_graph_commands", "command/src/bin/gc-add.rs: main", "command/src/bin/gc-delete.rs: main", "core/src/format/gcmd.rs: add_commands"]}
{"id": "C92", "title": "Interrupted gc-init and gc-clean are all or nothing", "statement": "If gc-init is killed, either nothing that can be loaded changed or there is a new empty graph; if gc-clean is killed, the graph is as before or there is none. Running the same command again completes the work.", "quantifier": "all file systems, all kill points (also between the removal of two directory entries)", "why_tests_cant": "Ranges over all kill points and removal orders.", "anchors": ["command/src/graph_utils.rs: init, clean, touch", "command/src/bin/gc-init.rs: main", "command/src/bin/gc-clean.rs: main"]}
{"id": "C93", "title": "Interrupted gc-random keeps the old or gives the new graph", "statement": "If gc-random is killed at any point, loading gives the old graph or the new one.", "quantifier": "all file systems, generated graphs, iteration orders and kill points", "why_tests_cant": "Ranges over all kill points between clean, init and save.", "anchors": ["command/src/bin/gc-random.rs: main", "command/src/graph_utils.rs: clean, init, save_graph_as_commands"]}
{"id": "C94", "title": "Concurrent commands with gc-clean have a simple history", "statement": "When additions, removals, gc-init, gc-clean, gc-random and queries run at the same time, every query answers either that there is no graph or with a graph some sequence of whole commands stored; every command takes effect at most once and completely; a command that starts later sees at least what was stored when it started, or a graph created later.", "quantifier": "all sets of processes, all interleavings of their system calls, all initial graphs, also when processes are killed", "why_tests_cant": "Ranges over all interleavings of system calls of any number of processes, with files that are removed while they are open.", "anchors": ["command/src/graph_utils.rs: clean, with_lock, init, load_graph, apply_graph_commands", "command/src/bin/gc-clean.rs: main", "command/src/bin/gc-random.rs: main", "core/src/format/gcmd.rs: add_commands, save"]}
{"id": "C95", "title": "A removed graph does not come back", "statement": "Once the graph was removed, nothing of it is ever stored or answered again to commands that begin later: later graphs are built from the empty graph by commands that had not yet opened the graph.", "quantifier": "all sets of processes, all interleavings, all moments at which there is no graph", "why_tests_cant": "Ranges over all interleavings, including writers that opened the file before it was removed.", "anchors": ["command/src/graph_utils.rs: clean, with_lock, init, load_graph, apply_graph_commands", "command/src/bin/gc-clean.rs: main", "command/src/bin/gc-random.rs: main", "core/src/format/gcmd.rs: add_commands, save", "command/src/bin/gc-build.rs: main"]}
{"id": "C96", "title": "gc-clean loses no later additions", "statement": "An addition or removal that begins after all gc-clean processes returned and that reports success is in the stored graph, whatever other commands do at the same time.", "quantifier": "all sets of processes, all interleavings", "why_tests_cant": "Ranges over all interleavings of any number of processes.", "anchors": ["command/src/graph_utils.rs: clean, with_lock, init, load_graph, apply_graph_commands", "command/src/bin/gc-clean.rs: main", "command/src/bin/gc-random.rs: main", "core/src/format/gcmd.rs: add_commands, save"]}
{"id": "C97", "title": "A successful gc-clean removes everything stored before it", "statement": "If gc-clean reports success, a query that begins afterwards answers that there is no graph, or with a graph made from the empty graph only by commands that had not opened the graph when gc-clean began; if gc-clean reports failure, the graph is still there.", "quantifier": "all sets of processes running beside gc-clean, all interleavings", "why_tests_cant": "Ranges over all interleavings of gc-clean with any number of processes.", "anchors": ["command/src/graph_utils.rs: clean, with_lock, init, load_graph, apply_graph_commands", "command/src/bin/gc-clean.rs: main", "command/src/bin/gc-random.rs: main", "core/src/format/gcmd.rs: add_commands, save"]}
{"id": "C98", "title": "Several gc-build at once keep the graph", "statement": "When several gc-build processes run at once on the same graph, and all of them report success, the stored graph is the same as before; a query running beside them loads that graph.", "quantifier": "all stored graphs, all numbers of gc-build processes and queries, all interleavings of their system calls, all hash map orders", "why_tests_cant": "Ranges over all interleavings of any number of processes and over all graphs.", "anchors": ["command/src/bin/gc-build.rs: main", "command/src/graph_utils.rs: load_graph, save_graph_as_commands", "core/src/format/gcmd.rs: save", "core/src/format/utils.rs: read"]}
{"id": "C99", "title": "Files and answers are read as the text they encode", "statement": "A commands file that is UTF-8 is read exactly as the text it encodes; a file that is not UTF-8 never loads as a graph: reading stops at its first undecodable line, with the error of an earlier line if there is one and a panic otherwise, and gc-build then leaves every byte as it was; additions keep all bytes and never turn an undecodable file into a decodable one; a write cut off between any two bytes leaves a prefix of the text; an answer that is not UTF-8 makes gc-clean panic before anything is removed.", "quantifier": "all byte sequences in the file and on standard input, all lists of commands", "why_tests_cant": "Ranges over all byte sequences.", "anchors": ["core/src/format/utils.rs: read_as_commands, read", "core/src/format/gcmd.rs: save, add_commands", "command/src/arg_utils.rs: confirmation_yes_no", "command/src/bin/gc-build.rs: main", "command/src/bin/gc-clean.rs: main"]}
{"id": "C100", "title": "Library calls that change the stored graph", "statement": "add_vertex, add_vertices, add_edge, add_edges, remove_vertex, remove_vertices and remove_edges report success exactly if the lock file can be created and the graph is initialised; then the stored graph is the old one with exactly the given vertices or edges added or removed, and nothing else changed on disk; otherwise the stored graph is untouched. The lock is free afterwards.", "quantifier": "all file systems, all stored graphs, all lists of vertices and edges", "why_tests_cant": "Ranges over all file systems, graphs and lists.", "anchors": ["command/src/graph_utils.rs: add_vertex, add_vertices, add_edge, add_edges, remove_vertex, remove_vertices, remove_edges, apply_graph_commands"]}
{"id": "C101", "title": "Builds without overflow checks agree with builds that have them", "statement": "Wherever a build with overflow checks does not panic, a build without them (cargo build --release) gives the same result, or also runs for ever: shortest_path, constrained_shortest_path, dag_shortest_path(s), dag_longest_path(s), bellman_ford, spfa, max_flow, gc-random. The searches of gc-short-path and gc-csp are the same in both builds.", "quantifier": "all graphs, costs, heuristics, weights, capacities, constraints, random numbers, heap tie-breaking", "why_tests_cant": "Ranges over all inputs of two builds; a test suite runs one build.", "anchors": ["core/src/search/a_star.rs: shortest_path, constrained_shortest_path, one_weighted_edge", "core/src/algorithm/shortest_path.rs: dag_shortest_paths, bellman_ford, spfa", "core/src/algorithm/longest_path.rs: dag_longest_paths", "core/src/algorithm/max_flow.rs: max_flow", "command/src/bin/gc-random.rs: main"]}
{"id": "C102", "title": "Builds without overflow checks give right answers", "statement": "Without overflow checks, bellman_ford, spfa, dag_shortest_paths, dag_longest_paths and max_flow still return right answers (lightest walks, negative cycles, the value of the flow).", "quantifier": "all graphs, all i64 weights and u64 capacities", "why_tests_cant": "Ranges over all weights; overflows need sums of weights beyond 2^63.", "anchors": ["core/src/algorithm/shortest_path.rs: dag_shortest_paths, bellman_ford, spfa", "core/src/algorithm/longest_path.rs: dag_longest_paths", "core/src/algorithm/max_flow.rs: max_flow"]}
{"id": "C103", "title": "gc-random honours --connected and --cycle", "statement": "With --connected gc-random stores a connected graph; with --cycle a b ... the stored graph has that cycle.", "quantifier": "all random numbers, sizes and option values", "why_tests_cant": "The graph is random; a test sees one draw.", "anchors": ["command/src/bin/gc-random.rs: main, creates_random_dag"]}
{"id": "C104", "title": "A broken standard output does not leave a command half done", "statement": "When standard output breaks (closed pipe) at any line, gc-build, gc-clean and gc-random leave the files either untouched or as after the whole run, what was printed is the beginning of the whole output, and exit code 0 means that everything was done and printed.", "quantifier": "every file system, every option, every answer, every line at which the output breaks", "why_tests_cant": "Ranges over all states and all break points of the output.", "anchors": ["command/src/bin/gc-build.rs: main", "command/src/bin/gc-clean.rs: main", "command/src/bin/gc-random.rs: main", "command/src/arg_utils.rs: confirmation_yes_no"]}
{"id": "C105", "title": "What gc-build and gc-clean report is true", "statement": "gc-build in verbose mode prints the numbers of vertices and edges of the stored graph; gc-clean --silent prints nothing when it succeeds, otherwise its question, 'Cleaning ...' and 'Done.', or 'Aborting.'.", "quantifier": "every stored graph, every option and answer", "why_tests_cant": "Ranges over all graphs and option combinations.", "anchors": ["command/src/bin/gc-build.rs: main", "command/src/bin/gc-clean.rs: main"]}
{"id": "C106", "title": "Failing file-system calls do no lasting harm", "statement": "Whatever commands are run in a directory and whichever calls to the file system fail (I/O errors, permissions, full disk), nothing outside .graph but the lock file is touched, gc-init, gc-add and gc-delete lose nothing that is stored, a successful gc-init means that the command file exists, a successful gc-clean means that the graph and the lock are gone, and afterwards gc-clean and gc-init bring back a working empty graph.", "quantifier": "every session of commands, every set of failing calls, every amount of text written before a failure, every initial state of the directory", "why_tests_cant": "Ranges over all sessions and all subsets of calls that fail.", "anchors": ["command/src/graph_utils.rs: touch, with_lock, clean, init", "core/src/format/gcmd.rs: add_commands, save", "command/src/bin/gc-add.rs: main", "command/src/bin/gc-delete.rs: main", "command/src/bin/gc-clean.rs: main", "command/src/bin/gc-init.rs: main"]}
{"id": "C107", "title": "Failing file-system calls are reported", "statement": "When a call to the file system fails, a change of the stored graph reports it: success means that everything was stored, an error that it was not, and a command that could not store everything leaves a graph that can be loaded.", "quantifier": "every library call and every run of gc-add, gc-delete, gc-build and gc-random, every set of failing calls", "why_tests_cant": "Ranges over all inputs and all subsets of calls that fail.", "anchors": ["command/src/graph_utils.rs: apply_graph_commands, with_lock, save_graph_as_commands", "core/src/format/gcmd.rs: add_commands, save", "command/src/bin/gc-add.rs: main", "command/src/bin/gc-delete.rs: main", "command/src/bin/gc-build.rs: main", "command/src/bin/gc-random.rs: main"]}
{"id": "C108", "title": "topological_sort lists vertices level by level", "statement": "In an order returned by topological_sort the vertices come by level, the level of a vertex being the number of edges of the longest walk that ends in it: levels never decrease along the list, and the vertices without predecessor come first.", "quantifier": "every graph for which topological_sort returns an order, every iteration order of the hash map", "why_tests_cant": "Ranges over all graphs and all iteration orders.", "anchors": ["core/src/algorithm/topo_sort.rs: topological_sort, find_start_vertices"]}
{"id": "C109", "title": "Query commands print their answer, or a beginning of it, while they run", "statement": "At every moment of the run of gc-topo-sort, gc-short-path, gc-csp, gc-cycle or gc-desc, what has arrived on its standard output is a beginning of its answer, and what has arrived stays. If standard output takes only so many characters, exactly as many characters of the answer arrive and the command fails; exit code 0 means that the whole answer has arrived. gc-csp prints its constraints before it searches, gc-cycle --all and --take-n print each cycle as soon as it is found, also if the rest of the search never ends.", "quantifier": "every stored graph, every argument list, every moment of the run, every number of characters standard output takes", "why_tests_cant": "Ranges over all graphs, arguments, moments and break points; tests look at the output of finished runs.", "anchors": ["command/src/bin/gc-topo-sort.rs: main", "command/src/bin/gc-short-path.rs: main", "command/src/bin/gc-csp.rs: main, shortest_path_with_constraints", "command/src/bin/gc-cycle.rs: main", "command/src/bin/gc-desc.rs: main"]}
{"id": "C110", "title": "Comparisons agree with equality", "statement": "cmp on vertices, edges and cycles is a total order in which Equal means ==: ids in numerical order, edges by start then end, cycles in dictionary order; the canonical form of a cycle is the least of its rotations. For scored paths cmp is consistent with ==, too.", "quantifier": "all vertices, edges, cycles, scored paths", "why_tests_cant": "Ranges over all pairs and triples of values; sorting, sets and heaps rely on the laws.", "anchors": ["core/src/graph.rs: VertexId, Edge, From<(VertexId, VertexId)>", "core/src/iter/iter_cycle.rs: Cycle, canonical", "core/src/path.rs: Ord for ScoredPath, PartialOrd for ScoredPath"]}
{"id": "C111", "title": "Messages and answers can be read back", "statement": "The texts the tools and the library give out are unambiguous. Two lists of constraints rejected by validate with the same message have the same conflict; the message about an unreadable file determines line number and line; two runs of gc-topo-sort or gc-short-path that print the same text had the same question and have the same answer; the lists of cycles of gc-cycle and the description of gc-desc (whatever the path) can be read back.", "quantifier": "all lists of constraints, files, stored graphs, arguments, paths", "why_tests_cant": "Ranges over all pairs of answers; a test compares a text with one expected text.", "anchors": ["core/src/constraint/checker.rs: validate", "core/src/format/utils.rs: read_as_commands", "command/src/bin/gc-topo-sort.rs: main", "command/src/bin/gc-short-path.rs: main", "command/src/bin/gc-cycle.rs: main, format_cycle, format_cycle_opt", "command/src/bin/gc-desc.rs: main"]}
{"id": "C112", "title": "Shortest walks for weights of any size", "statement": "bellman_ford and spfa always end, whatever the weights. They panic only if some walk from the start has a total weight that is no i64. Otherwise the map holds the walks that are lightest among those that stay below i64::MAX; bellman_ford answers None exactly if a negative cycle can be reached and followed below i64::MAX, and spfa never returns then; when both return they agree. Without negative weights every score is the least weight of all walks.", "quantifier": "all graphs, weight functions, starts", "why_tests_cant": "Ranges over all graphs and weights, in particular those near the limits of i64, where an addition may overflow at any depth of the search.", "anchors": ["core/src/algorithm/shortest_path.rs: bellman_ford, spfa"]}
{"id": "C113", "title": "Files and answers are read whole or not at all", "statement": "What is read from a file or from the user depends on the bytes only, not on the pieces in which the operating system hands them out or on interrupted calls. If a call fails, no graph is loaded: the program panics or reports the error of a line before the failure. gc-clean removes nothing if standard input fails before the answer is complete.", "quantifier": "all sequences of read calls: pieces of any size, interruptions and failures anywhere", "why_tests_cant": "Ranges over all ways in which the operating system may cut, interrupt or fail the calls.", "anchors": ["core/src/format/utils.rs: read, read_as_commands", "command/src/graph_utils.rs: load_graph_from_path", "command/src/arg_utils.rs: confirmation_yes_no", "command/src/bin/gc-clean.rs: main"]}
{"id": "C114", "title": "Iterators can be called again and again", "statement": "The iterator objects of the library (depth first, breadth first, their path variants, best first, constrained best first, cycles, Hamiltonian paths) give their items one by one, whatever the number of calls of next, and after the first None only None.", "quantifier": "all graphs, starts, closures, constraints, states of the iterators, numbers of calls", "why_tests_cant": "Ranges over all states and all numbers of calls after the end; a test collects once.", "anchors": ["core/src/iter/iter_depth.rs: DepthFirstIter::next, DepthFirstPathIter::next", "core/src/iter/iter_breadth.rs: BreadthFirstIter::next, BreadthFirstPathIter::next", "core/src/iter/iter_best.rs: BestFirstIter::next", "core/src/iter/iter_best_constraint.rs: ConstrainedBestFirstIter::next", "core/src/iter/iter_cycle.rs: CycleIter::next", "core/src/algorithm/hamiltonian.rs: iter_hamiltonian_paths"]}
{"id": "C115", "title": "Graphs in different directories are independent", "statement": "A command changes nothing outside of .graph and the lock file of its directory, except that it may create missing directories on the way there; also when it is killed or calls to the file system fail. So graphs in different directories, one of which may be a subdirectory of the other, are independent: commands in any number of directories, in any order, have the same exit codes, leave the same files and give the same answers as without those in the other directories.", "quantifier": "all states of the file system, directories, commands with all arguments, kill points, failing calls, sequences of commands over any number of directories", "why_tests_cant": "Ranges over all states of the file system and all interleavings of sessions; a test looks at one directory.", "anchors": ["command/src/graph_utils.rs: init, lock, unlock, with_lock, load_graph, save_graph_as_commands, clean, apply_graph_commands, touch, lock_path, root_path, command_path", "command/src/bin/gc-init.rs: main", "command/src/bin/gc-add.rs: main", "command/src/bin/gc-delete.rs: main", "command/src/bin/gc-build.rs: main", "command/src/bin/gc-clean.rs: main", "command/src/bin/gc-random.rs: main"]}
{"id": "C116", "title": "Command lines mean what they say", "statement": "A binary accepts exactly the command lines that are uses of its declared arguments (long or short, values after a space, glued or after an equality sign, flags together or apart) with required arguments present, nothing repeated that must not be, numbers of values within their limits and exactly one action for gc-cycle. Then it is asked for exactly what the line says: every value goes to its option, in order, options that are not given have their default or no value. Spelling and order of different arguments make no difference. Every other line is refused as a whole; no accepted line makes reading the arguments panic.", "quantifier": "all binaries, all lists of words", "why_tests_cant": "There are infinitely many command lines; a test looks at a few spellings.", "anchors": ["command/src/bin/gc-init.rs: main", "command/src/bin/gc-add.rs: main", "command/src/bin/gc-delete.rs: main", "command/src/bin/gc-build.rs: main", "command/src/bin/gc-clean.rs: main", "command/src/bin/gc-random.rs: main", "command/src/bin/gc-desc.rs: main", "command/src/bin/gc-topo-sort.rs: main", "command/src/bin/gc-short-path.rs: main", "command/src/bin/gc-csp.rs: main", "command/src/bin/gc-cycle.rs: main"]}
{"id": "C117", "title": "Typed sessions leave the graph the lines say", "statement": "After any sequence of typed command lines about one directory the stored graph is the one obtained from what the lines say, one after the other, on sets of vertices and edges. Lines that are refused and queries change nothing.", "quantifier": "all sequences of lines (any words), answers, generated graphs, hash orders, states of the file system", "why_tests_cant": "Ranges over all histories of arbitrary lines.", "anchors": ["command/src/bin/gc-init.rs: main", "command/src/bin/gc-add.rs: main", "command/src/bin/gc-delete.rs: main", "command/src/bin/gc-build.rs: main", "command/src/bin/gc-clean.rs: main", "command/src/bin/gc-random.rs: main", "command/src/graph_utils.rs: apply_graph_commands, clean, init, save_graph_as_commands"]}
{"id": "C118", "title": "Every documented option can be used", "statement": "Every option of the help texts can be used for what it is documented for: gc-build is verbose only if asked, gc-cycle --include-all and --exclude-all take the provided vertices, --include-all-edges and --exclude-all-edges the provided edges, and scores can be any i64 number.", "quantifier": "all command lines, all graphs", "why_tests_cant": "That an option cannot be used in any way is a statement about all command lines and all graphs.", "anchors": ["command/src/bin/gc-build.rs: main", "command/src/bin/gc-cycle.rs: main", "command/src/bin/gc-csp.rs: main", "command/src/arg_utils.rs: parse_edge_list"]}
{"id": "C119", "title": "Sessions at a terminal", "statement": "Any lines typed one after the other at a terminal, each naming any directory (none inside the graph files of another one): the text printed by each, its exit code, and the graphs stored afterwards in all directories are those that the lines say, on sets of vertices and edges. Lines that are refused exit with 1 and change nothing, requests for help or the version exit with 0 and change nothing, queries change nothing and their answers are about the graph that was stored by the lines before, commands that fail exit with 101 and leave the graph. Nothing else in the file system changes. All processes end, but gc-csp when there is nothing to find and gc-random when there are not enough edges to draw.", "quantifier": "all sequences of lines of any words for all eleven binaries, all directories, all answers typed, all random numbers, all hash orders, all starting file systems", "why_tests_cant": "Ranges over all histories of arbitrary lines and directories.", "anchors": ["command/src/bin: main of all binaries", "command/src/graph_utils.rs: apply_graph_commands, clean, init, save_graph_as_commands, load_graph", "command/src/arg_utils.rs"]}
{"id": "C120", "title": "Searches take as many steps as the graph is large", "statement": "The work done by a query grows with the size of the graph and not with the number of its paths: the depth-first and breadth-first iterators over vertices, gc-short-path and the topological sort go round their loops about once for every vertex, iterators over paths once for every path they return, and so do gc-csp, max_flow, gc-cycle and the search for hamiltonian paths.", "quantifier": "all graphs, all start and end vertices, all capacities, all options of gc-cycle, all heaps", "why_tests_cant": "A bound on the number of steps is a statement about graphs of all sizes; that a search is exponential shows only in a family of graphs.", "anchors": ["core/src/iter/iter_depth.rs: DepthFirstIter, DepthFirstPathIter", "core/src/iter/iter_breadth.rs: BreadthFirstIter, BreadthFirstPathIter", "core/src/search/a_star.rs: shortest_path, constrained_shortest_path", "core/src/algorithm/topo_sort.rs: topological_sort", "core/src/algorithm/max_flow.rs: max_flow", "core/src/iter/iter_cycle.rs: CycleIter", "core/src/algorithm/hamiltonian.rs: is_hamiltonian", "command/src/bin/gc-cycle.rs: main"]}
{"id": "C121", "title": "Searches take no more steps than there are paths", "statement": "The searches that enumerate paths do not repeat work: gc-csp goes round its loop at most once for every walk it may not prune and that is not longer than its answer, max_flow at most once for every edge whatever the capacities are, looking each time at every path without a repeated vertex from the start at most once, gc-cycle at most once for every walk from a starting vertex whose vertices differ except perhaps the last, and the search for hamiltonian paths at most once for every path without a repeated vertex (and a fixed number of rounds more).", "quantifier": "all graphs, all start and end vertices, all capacities, all constraints, all options of gc-cycle, all heaps", "why_tests_cant": "A bound on the number of steps is a statement about graphs of all sizes; a search that looks at a path twice still gives the right answer.", "anchors": ["core/src/search/a_star.rs: constrained_shortest_path", "core/src/algorithm/max_flow.rs: max_flow, AugmentingPathIter", "core/src/iter/iter_cycle.rs: CycleIter", "core/src/algorithm/cycle.rs", "core/src/algorithm/hamiltonian.rs: is_hamiltonian, first_path", "command/src/bin/gc-cycle.rs: main", "command/src/bin/gc-csp.rs: main"]}
{"id": "C122", "title": "The manual in the README is accurate", "statement": "README.md lists for each binary its flags and options with their letters, which of them must be given, and their default values. A binary accepts exactly the command lines made of these arguments, asks for what such a line says, and answers a request for help or version with -h, --help, -V or --version, where -h is --head for gc-cycle.", "quantifier": "all binaries, all lists of words", "why_tests_cant": "That nothing else is accepted, and that everything listed is, is a statement about all command lines.", "anchors": ["README.md", "command/src/bin/*.rs: main (the clap declarations)"]}
{"id": "C123", "title": "Sessions on a disk with little room", "statement": "When commands are run on a disk with limited room, each of them leaves what it would leave without a limit, except that the command file is cut off where the room ends. If the file never outgrows the disk, everything is as without a limit, including the exit codes; a series of gc-init, gc-add and gc-delete leaves the beginning that fits of what the whole series would have stored. No room is lost, and gc-clean and gc-init give an empty graph with all the room back.", "quantifier": "all sequences of gc-init, gc-add, gc-delete, gc-build, gc-clean and gc-random, all file systems, all amounts of free space", "why_tests_cant": "The room can run out at every byte of every command of every session.", "anchors": ["core/src/format/gcmd.rs: add_commands, save", "command/src/graph_utils.rs", "command/src/bin/gc-random.rs: main", "command/src/bin/gc-clean.rs: main"]}
{"id": "C124", "title": "Best-first iteration takes the best path found so far, and without ties nothing else decides", "statement": "best_iter_from yields at each step a path of least score among those found and not yet yielded. A path is found when a yielded path has an edge to a vertex that is not the start and that no path yielded earlier has an edge to. Every beginning of a yielded path was yielded earlier, and if extending a path never lowers its score the scores come in order. If no two simple paths from the start have the same score, what is yielded, and so the answer of shortest_path, depends only on the edges of the graph and the scores: not on the heap, the order of hash maps or how the graph was built.", "quantifier": "every graph, start, end, scoring function, heap and order of edges", "why_tests_cant": "tests run one standard library with small graphs and one score; the order depends on all paths found at every step", "anchors": ["core/src/iter/iter_best.rs: BestFirstIter::next, best_iter_from", "core/src/search/a_star.rs: shortest_path"]}
{"id": "C125", "title": "Constrained search takes the best walk that waits, and without ties nothing else decides", "statement": "constrained_best_iter_from yields at each step a walk of least score among the waiting ones: the unpruned walks not yet yielded that are the start alone or one edge longer than a yielded walk. It ends exactly when none waits. If no two unpruned walks have the same score, the items yielded, and whether constrained_shortest_path returns and what, depend only on the edges of the graph, the scores and the constraints, even if scores fall along a walk or the iteration never ends.", "quantifier": "every graph, scoring function (also one that panics or falls), constraints, heap and number of items taken", "why_tests_cant": "the iteration can be infinite and its order depends on all walks waiting at every step", "anchors": ["core/src/iter/iter_best_constraint.rs: ConstrainedBestFirstIter::next, constrained_best_iter_from", "core/src/search/a_star.rs: constrained_shortest_path"]}
{"id": "C126", "title": "Commands do not wait for each other", "statement": "Whatever other commands do in the same directory at the same time, also if they are killed or stop for ever with the lock file there, every command ends: gc-add and gc-delete after two system calls for each stored command and five more, gc-init after two, gc-clean after seven, gc-random (once its graph is generated) after three for each vertex, five for each edge and eleven more; a query and gc-build after a number that is proportional to the largest size of the command file. Without gc-build and gc-random the command file is never larger than at the beginning with all batches added.", "quantifier": "all sets of processes, all schedules, all contents of the directory", "why_tests_cant": "Ranges over all interleavings, including those in which a process is stopped at any point for ever.", "anchors": ["command/src/graph_utils.rs: with_lock, lock, unlock, init, clean, load_graph, apply_graph_commands", "core/src/format/gcmd.rs: add_commands, save", "command/src/bin/gc-build.rs: main", "command/src/bin/gc-random.rs: main"]}
{"id": "C127", "title": "gc-build compacts the command file", "statement": "After gc-build the command file has exactly one line for each vertex and then one line for each edge, without comments, removals or repetitions. Its size depends only on the vertices and edges of the graph, not on how the graph came about or on the order in which a hash map lists it; a second gc-build does not change the size. gc-build makes the file at most three times as large (a bound that is reached), and not larger at all if every vertex has an AddVertex line of its own.", "quantifier": "all contents of the command file that can be loaded, all iteration orders of the hash map", "why_tests_cant": "Ranges over all files, including ids with leading zeros, comments, CRLF line ends and any history of additions and removals, and over all hash map orders.", "anchors": ["command/src/bin/gc-build.rs: main", "core/src/format/gcmd.rs: save, parse_line", "command/src/graph_utils.rs: load_graph, save_graph_as_commands"]}
{"id": "C128", "title": "What iterators keep in memory", "statement": "At any moment of an iteration, the depth-first, breadth-first and best-first iterators over vertices keep no more vertices or paths than the graph has vertices; the depth-first iterator over paths, and with it the Hamiltonian path search, keeps at most one path for each edge and one more, although there may be exponentially many paths to list; the iterator over cycles keeps at most as many walks to follow as the graph has vertices and edges. The breadth-first iterator over paths keeps exponentially many paths on some graphs.", "quantifier": "all graphs built through the API, all start vertices, all scoring closures, all numbers of calls of next, and every round of the loops inside next", "why_tests_cant": "Ranges over all graphs and every intermediate state of the iteration; the exponential case cannot be run to the point where it matters.", "anchors": ["core/src/iter/iter_depth.rs: DepthFirstIter, DepthFirstPathIter", "core/src/iter/iter_breadth.rs: BreadthFirstIter, BreadthFirstPathIter", "core/src/iter/iter_best.rs: BestFirstIter", "core/src/iter/iter_cycle.rs: CycleIter", "core/src/algorithm/hamiltonian.rs: iter_hamiltonian_paths"]}
{"id": "C129", "title": "The numbers of the vertices do not matter", "statement": "If the vertices get other numbers (a one-to-one renaming), every query and command answers for the new numbers what it answered for the old: the same commands build the renamed graph; listings, degrees and counts correspond; traversals visit the renamed vertices and path iterators yield the renamed paths; gc-short-path and gc-csp (with renamed constraints) find paths of the same length or none; topological_sort succeeds for both or neither; bellman_ford and spfa give the same scores; Hamiltonian paths correspond. Partial: for max_flow and for the list of cycles this holds only for the classes of graphs stated in the theorems, and fails for others.", "quantifier": "all one-to-one renamings of the 64-bit ids, all graphs built through the API and all iteration orders of their hash maps, all start and end vertices, constraints, weights and capacities", "why_tests_cant": "Ranges over all permutations of 2^64 ids, all graphs and all hash map orders.", "anchors": ["core/src/graph.rs: VertexId", "core/src/directed_graph.rs: DirectedGraph", "core/src/iter", "core/src/algorithm", "core/src/search", "command/src/bin"]}
{"id": "C130", "title": "Turning all edges round", "statement": "If every edge is turned round, the same commands (with the ends of each edge exchanged) build the turned graph, listings correspond and the two degrees change places; t is visited from s exactly if s is visited from t; gc-short-path from t to s finds a path as long as the one from s to t; bellman_ford and spfa give the same score for the pair in the other order; the Hamiltonian paths are the same paths backwards. Partial: topological_sort (read backwards) for graphs without self-loops, max_flow and the list of cycles for the classes of graphs stated in the theorems; each fails for other graphs.", "quantifier": "all graphs built through the API and all iteration orders of their hash maps, all pairs of vertices, weights and capacities", "why_tests_cant": "Relates two runs on every pair of graphs and all hash map orders.", "anchors": ["core/src/directed_graph.rs: DirectedGraph", "core/src/iter", "core/src/algorithm", "core/src/search", "command/src/bin"]}
{"id": "C131", "title": "What more vertices and edges can change", "statement": "Adding vertices and edges never takes anything away that depends on walks: traversals still visit every vertex they visited and path iterators still yield every path; gc-short-path and gc-csp still find a path, and none that is longer; scores of bellman_ford and spfa do not rise and a negative cycle is still reported; topological_sort never starts to succeed; edges added between existing vertices leave every Hamiltonian path and the existence of a Hamiltonian cycle. Partial: one more edge can lower the value reported by max_flow and can empty the list of cycles; the theorems state the classes of graphs in which it cannot.", "quantifier": "all pairs of graphs built through the API of which one contains the other, all iteration orders of the hash maps, all start and end vertices, constraints, weights and capacities", "why_tests_cant": "Relates two runs on every pair of graphs and all hash map orders.", "anchors": ["core/src/directed_graph.rs: DirectedGraph", "core/src/iter", "core/src/algorithm", "core/src/search", "command/src/bin"]}
{"id": "C132", "title": "What a power failure leaves", "statement": "What a command reported as stored is still there after a power failure. Partial: no command waits for the disk, so the end of the session may be gone; what is left is the state at some earlier moment of the session: after gc-init, gc-add and gc-delete the earlier graph with a first part of the new commands (and perhaps a piece of the next line), and after any session a state from which gc-clean and gc-init start again, with nothing else touched but the lock file. gc-build can lose a graph that was on the disk before it ran.", "quantifier": "all stored graphs, all sessions of gc-init, gc-add, gc-delete, gc-build, gc-clean and gc-random, all moments up to which the disk has the changes", "why_tests_cant": "Ranges over every point of every session at which the disk may have stopped, which a test cannot choose.", "anchors": ["core/src/format/gcmd.rs: save, add_commands", "command/src/graph_utils.rs: apply_graph_commands, touch"]}
{"id": "C133", "title": "How the path is written does not matter", "statement": "A command that changes or reads the stored graph does the same, and ends in the same way, for every way to write its path: relative or from the top, with or without a slash at the end, with doubled slashes or dots, run from any directory from which the text means the same place. Commands of one session may each use another spelling. Missing directories are made on the way. (Paths with `..` are left out: there, gc-init makes directories that the path then leaves again.)", "quantifier": "all texts without `..`, all working directories, all file systems, all commands and sessions of gc-init, gc-add, gc-delete, gc-build, gc-clean and gc-random", "why_tests_cant": "There are infinitely many texts for one directory, and the claim relates all of them in every state of the file system.", "anchors": ["command/src/graph_utils.rs: touch, lock_path, root_path, command_path"]}
{"id": "C134", "title": "Lines are read as the patterns say", "statement": "A line of a gcmd or TGF file is read as a command exactly if the regular expression for that command, as it stands in the code, matches the line; the numbers are those of the groups in the first match with the longest repetitions. A match that exists is found, a match that is reported is one, and no match begins further to the left. Whole files are read in this way.", "quantifier": "all lines, all files, all patterns made of characters, \\d, \\s, ., +, *, ^, $ and groups, all sets of non-ASCII digits", "why_tests_cant": "Agreement of a search with the meaning of a pattern ranges over all texts; a test shows single lines.", "anchors": ["core/src/format/gcmd.rs: parse_line", "core/src/format/tgf.rs: parse_line"]}
{"id": "C135", "title": "Numbers are read and written exactly", "statement": "A number in a file or an argument is accepted exactly if it is a decimal numeral within the range of its type, perhaps after a sign, and it is read as exactly that number: no number wraps around, also where the digits are added without overflow checks. A number is written in decimal notation without superfluous zeros. Every number that is written is read back as itself.", "quantifier": "all texts, including those with characters outside ASCII; all numbers of 64 bits, signed and unsigned", "why_tests_cant": "There are 2^64 numbers and infinitely many texts; a wrong overflow check or a wrong entry in the table of digits shows for few of them.", "anchors": ["core/src/format/gcmd.rs: parse_line", "core/src/format/tgf.rs: parse_line", "command/src/arg_utils.rs: parse_vertex_id"]}
{"id": "C136", "title": "Constraints agree with changes of the graph", "statement": "gc-csp with excluded vertices or edges, and any other constraints, finds a walk exactly as long as the one it finds without them once they have been deleted; with `exclude` alone it agrees with gc-short-path after gc-delete. Without constraints, or if only cycles are forbidden, it agrees with gc-short-path. Through a vertex the number of edges is the distance to it plus the distance from it; through an edge likewise, plus one. A maximal length only decides whether the shortest path is accepted. The order and form of constraints do not matter, fewer constraints never give a longer walk, and of two alternatives the better one is taken.", "quantifier": "all graphs built through the API, all vertices, constraints, sets of excluded vertices and edges, all heaps that break ties differently in the two runs; walks of less than 2^63 vertices", "why_tests_cant": "Relates two runs of different searches on all graphs and constraints.", "anchors": ["core/src/search/a_star.rs: constrained_shortest_path, shortest_path", "core/src/constraint/constraint.rs: Constraint", "command/src/bin/gc-csp.rs: build_all_constraints", "core/src/directed_graph.rs: remove_vertex, remove_edge"]}
{"id": "C137", "title": "What cannot be reached does not matter", "statement": "Adding vertices, deleting vertices that cannot be reached from a vertex, and adding or removing edges at whose source one cannot get, in any number, changes no result of a search from that vertex: the iterators give the same vertices and the same paths, gc-short-path and gc-csp find walks of the same length for every end and all constraints, and bellman_ford, spfa and the functions for acyclic graphs give the same scores, whatever the weights elsewhere are.", "quantifier": "all graphs built through the API, all vertices, all lists of such commands, all constraints, weight functions and heaps", "why_tests_cant": "Relates runs on all pairs of graphs that agree on a part; the changes are unbounded.", "anchors": ["core/src/search/a_star.rs: shortest_path, constrained_shortest_path", "core/src/iter/iter_depth.rs", "core/src/iter/iter_breadth.rs", "core/src/algorithm/shortest_path.rs: bellman_ford, spfa, dag_shortest_paths", "core/src/directed_graph.rs: remove_vertex, add_edge, remove_edge"]}
{"id": "C138", "title": "Different queries agree about the same graph", "statement": "A vertex is visited by the depth-first iteration from another exactly if it is by the breadth-first one, if a path of the path iterators ends there, if gc-short-path finds a path and if gc-csp without constraints does; the length found by gc-short-path is the smallest one of the paths listed. If topological_sort returns nothing, gc-short-path finds a way back along some edge and gc-csp finds a walk with a cycle; without self-loops the converse holds. girth is one more than the length of the shortest way back along an edge if every vertex can be reached from a vertex without incoming edge or the graph is strongly connected. first_path finds a Hamiltonian path exactly if gc-csp finds, from some vertex, a path without repetition with as many vertices as the graph has.", "quantifier": "all graphs built through the API (with fewer than 2^63 - 1 vertices), all start and end vertices, all heaps", "why_tests_cant": "Relates the results of independent implementations on every graph; a test compares them on a few.", "anchors": ["core/src/iter/iter_depth.rs: dfs_iter_from", "core/src/iter/iter_breadth.rs: bfs_path_iter_from", "core/src/search/a_star.rs: shortest_path, constrained_shortest_path", "core/src/algorithm/topo_sort.rs: topological_sort", "core/src/algorithm/cycle.rs: girth", "core/src/algorithm/hamiltonian.rs: first_path"]}
{"id": "C139", "title": "max_flow does not depend on the unit of the capacities, nor on edges of capacity 0", "statement": "If all capacities are multiplied by a positive number, the value and the flow on every edge that max_flow returns are multiplied by it, and it panics exactly if it did before or if the multiplied value does not fit into 64 bits. A common divisor of the capacities divides the value and all flows. Removing edges of capacity 0 or adding edges of capacity 0 (also with new vertices) changes neither the value nor the flow on the other edges.", "quantifier": "all graphs built through the API, all capacity functions, all factors, all lists of edges of capacity 0, all pairs of vertices", "why_tests_cant": "Relates the runs for all networks and factors; the code does not find a maximum flow in general, so there is no value to compare a single run with.", "anchors": ["core/src/algorithm/max_flow.rs: max_flow, find_augmenting_path, update_flow, residual_capacity"]}
{"id": "C140", "title": "Units and potentials of the weights do not matter for weighted shortest and longest paths", "statement": "If every weight is multiplied by a positive number, and the loss of a potential along the edge is added, then bellman_ford, spfa, dag_shortest_paths and dag_longest_paths report the same vertices, and every score is multiplied by that number with the loss of the potential from the start to that vertex added. A negative cycle is reported (by spfa: as a panic) for both weights or for none, and dag_shortest_paths and dag_longest_paths panic for both weights or for none. The heaviest scores are the negated lightest scores for the negated weights.", "quantifier": "all graphs built through the API (acyclic ones for the two dag functions), all start vertices, all weight functions, positive factors and potentials, with both weights small enough for 64 bits", "why_tests_cant": "Relates two runs for all graphs, weights and potentials, of which there are infinitely many.", "anchors": ["core/src/algorithm/shortest_path.rs: bellman_ford, spfa, dag_shortest_paths", "core/src/algorithm/longest_path.rs: dag_longest_paths"]}
{"id": "C141", "title": "Scores reported for different vertices and different starts fit together", "statement": "The scores bellman_ford, spfa and dag_shortest_paths report satisfy Bellman's equations: the start has score 0, no edge improves a score, and every other reported vertex gets its score along one of its incoming edges. Scores reported from different starts satisfy the triangle inequality, whichever of the functions reported them, and going to a vertex and back never has negative total score. The part of a reported path up to one of its vertices weighs what is reported for that vertex, and the rest weighs what is reported when that vertex is the start. The scores of dag_longest_paths satisfy the equations and the triangle inequality with the order reversed.", "quantifier": "all graphs built through the API (acyclic ones for the two dag functions), all weight functions small enough for 64 bits, all start vertices and reported vertices, all positions on reported paths", "why_tests_cant": "Relates several calls for all graphs, weights and vertices; tests compare single results with known values.", "anchors": ["core/src/algorithm/shortest_path.rs: bellman_ford, spfa, dag_shortest_paths", "core/src/algorithm/longest_path.rs: dag_longest_paths"]}
{"id": "C142", "title": "Best-first iteration and shortest_path use scores only by comparing them", "statement": "If two scoring closures order the simple paths from the start in the same way (for instance because one is an increasing function of the other, or another constant is the heuristic), then what best_iter_from yields for the one is a valid best-first order for the other. If there are no ties, best_iter_from yields the same paths in the same order for both, each with its own score, and shortest_path answers the same path for both with its own score.", "quantifier": "all graphs built through the API, all start and end vertices, all pairs of scoring closures (cost and heuristic for shortest_path) that order the simple paths alike and do not panic, all heaps", "why_tests_cant": "Ranges over all graphs and all pairs of scoring closures, which are functions.", "anchors": ["core/src/iter/iter_best.rs: BestFirstIter::next, best_iter_from", "core/src/search/a_star.rs: shortest_path"]}
{"id": "C143", "title": "How constraints are written does not matter", "statement": "Lists of constraints that mean the same give the same results: constrained_shortest_path returns the same answer for both, or panics or runs on for both; gc-cycle lets the same cycles through; and validate accepts both or none.", "quantifier": "all graphs, cost and heuristic closures, start and end vertices, heaps, cycles, all lists of constraints and all ways to rewrite them by order, repetition and the laws of Or, And, Xor (and Not)", "why_tests_cant": "Ranges over all constraints and all equivalences between them.", "anchors": ["core/src/constraint/constraint.rs: check_partial, check_complete", "core/src/constraint/checker.rs: validate", "core/src/iter/iter_best_constraint.rs: ConstrainedBestFirstIter::next", "core/src/search/a_star.rs: constrained_shortest_path", "command/src/bin/gc-cycle.rs: check"]}
{"id": "C144", "title": "Which graph commands can be swapped", "statement": "Applying two graph commands in either order gives the same vertices and edges exactly if neither removes a vertex or an edge that the other adds; if one does, the two orders differ on every graph. A batch without such a pair gives the same graph in whatever order it is applied, and a command repeated later in a batch can be dropped if nothing in between conflicts with it.", "quantifier": "all graphs built through the API, all pairs of commands, all batches and all their permutations", "why_tests_cant": "Ranges over all graphs, all commands and all orders of a batch.", "anchors": ["core/src/graph_command.rs: GraphCommand, apply_to, apply_commands"]}
{"id": "C145", "title": "The last command about a vertex or an edge decides", "statement": "After a batch of graph commands a vertex (an edge) is in the graph exactly if the last command of the batch that adds or removes it adds it, or no command does and it was there before; an edge is also removed with either end. A command whose effects are all settled again later can be left out. A batch of which every command can be undone by revert is undone by the reverted commands in opposite order, and every graph can be turned into every other one by a batch.", "quantifier": "all graphs built through the API, all batches of commands, all vertices and edges", "why_tests_cant": "Ranges over all graphs and all batches of any length.", "anchors": ["core/src/graph_command.rs: GraphCommand, revert, apply_to, apply_commands, as_commands"]}
{"id": "C146", "title": "Which weights and capacities are used", "statement": "bellman_ford, spfa, dag_shortest_paths and dag_longest_paths use exactly the weights of the edges that leave vertices reachable from the start: weights that agree on them give the same answer, panic or endless run, whatever the closure says about other edges, and every one of them can change the answer of bellman_ford and spfa. max_flow uses capacities of edges of the graph only. If weights are kept in an edge attribute mapping, attribute commands about other edges change nothing.", "quantifier": "all graphs built through the API, all weight and capacity closures (for DAGs also closures that panic), all starts, all histories of attribute commands", "why_tests_cant": "Ranges over all graphs and all pairs of closures.", "anchors": ["core/src/algorithm/shortest_path.rs: bellman_ford, spfa, dag_shortest_paths", "core/src/algorithm/longest_path.rs: dag_longest_paths", "core/src/algorithm/max_flow.rs: max_flow", "core/src/attribute/mapping.rs: as_closure_with_defaults", "core/src/attribute/attribute_command.rs: apply_edge_commands_to"]}
{"id": "C147", "title": "On which paths scores are asked for", "statement": "best_iter_from and shortest_path ask for scores of simple paths of the graph from the start without shortcut only (no edge from a vertex of the path to a later one that is not the next), and constrained_shortest_path of the start and the walks from it that prolong a walk not pruned by the constraints only (under MaxLength n, walks with at most n + 1 vertices; if cycles are excluded, walks without repeated vertex before the last): closures that agree there give the same answer, panic or endless run, the score of every path from the start without shortcut can change what best_iter_from yields, and when the constrained iteration yields a walk, all its prolongations by one edge were scored without panic. No path yielded by best_iter_from or returned by shortest_path has a shortcut, even if the shortcut costs more.", "quantifier": "all graphs built through the API, all cost and heuristic closures (also closures that panic), starts, ends, constraints and heaps", "why_tests_cant": "Ranges over all graphs and all pairs of closures.", "anchors": ["core/src/iter/iter_best.rs: best_iter_from, BestFirstIter::next", "core/src/iter/iter_best_constraint.rs: ConstrainedBestFirstIter::next", "core/src/search/a_star.rs: shortest_path, constrained_shortest_path"]}
{"id": "C148", "title": "Best-first searches panic only where the closures do", "statement": "If shortest_path panics, then the cost or the heuristic closure panics on a simple path from the start without shortcut, or their sum there is not an i64. If constrained_shortest_path panics, this is so for the start or for a walk that prolongs by one edge a walk not pruned by the constraints; and if it answers None, it is so for none of them.", "quantifier": "all graphs built through the API, all cost and heuristic closures, starts, ends, constraints and heaps", "why_tests_cant": "Ranges over all graphs and closures; the walks of a cyclic graph are infinitely many.", "anchors": ["core/src/search/a_star.rs: shortest_path, constrained_shortest_path", "core/src/iter/iter_best.rs: BestFirstIter::next", "core/src/iter/iter_best_constraint.rs: ConstrainedBestFirstIter::next"]}
{"id": "C149", "title": "Self-loops do not matter for paths without repetition", "statement": "Adding a self-loop at a vertex of the graph, or removing one, in any number, changes neither the vertices nor the paths the iterators yield, nor the number of edges gc-short-path finds, nor that gc-csp finds when cycles are excluded (whatever the other constraints are), nor the Hamiltonian paths. If no self-loop has a negative weight, bellman_ford and spfa give the same scores when they return in both graphs, and bellman_ford the same answer about negative cycles.", "quantifier": "all pairs of graphs built through the API that differ in self-loops only, all starts, ends, constraint lists, weights and heaps", "why_tests_cant": "Ranges over all graphs, starts, ends and constraint lists.", "anchors": ["core/src/iter/iter_depth.rs: DepthFirstIter::next, DepthFirstPathIter::next", "core/src/iter/iter_breadth.rs: BreadthFirstIter::next, BreadthFirstPathIter::next", "core/src/search/a_star.rs: shortest_path, constrained_shortest_path", "core/src/algorithm/hamiltonian.rs: iter_hamiltonian_paths", "core/src/algorithm/shortest_path.rs: bellman_ford, spfa"]}
{"id": "C150", "title": "What does not lead to the end does not matter", "statement": "Adding vertices, deleting vertices from which a vertex t cannot be reached, and adding or removing edges to such vertices, in any number, changes nothing about getting to t: from every start the iterators visit t or not as before and yield the same paths to t, gc-short-path and gc-csp find walks to t of the same length for all constraints, and bellman_ford and spfa give t the same score whenever they give scores.", "quantifier": "all pairs of graphs built through the API with the same edges to the vertices from which t can be reached, all sequences of such commands, all starts, ends, constraints, weights and heaps", "why_tests_cant": "Ranges over all graphs, all sequences of commands and all weights.", "anchors": ["core/src/directed_graph.rs: remove_vertex, add_edge, remove_edge", "core/src/iter/iter_depth.rs", "core/src/iter/iter_breadth.rs", "core/src/search/a_star.rs: shortest_path, constrained_shortest_path", "core/src/algorithm/shortest_path.rs: bellman_ford, spfa"]}
