# Formal model of graph-commands: design

The subject is the Rust workspace in `/repo` (`core`: graph library, `command`: command-line tools).
The model is a hand-written Lean 4 translation under `lean/Verif/`; it was made by reading the code,
no code was run or extracted.

## Layout

* `Verif/Model/*`  – the translated code. Every definition cites the file and lines it models.
* `Verif/Spec/*`   – independent specification vocabulary (walks, reachability, simple cycles, flows, set graphs ...).
* `Verif/Proofs/*` – helper lemmas and invariants.
* `Verif/Props/*`  – the property theorems (one file per area), each with a concrete non-vacuity example.
* `Verif/Tests/*`  – the unit tests of /repo run on the model (`decide +kernel`), under their Rust names: a check of the translation,
  not a proof of properties.

## Modelling conventions

* **Panics are data.** `unwrap`, `expect`, arithmetic overflow (checked, i.e. the debug-profile behaviour)
  give `Run.panicked`. Wrapping arithmetic (release profile) is modelled in `Model/Release.lean`. Counters and lengths of type `usize`
  (line numbers, sizes of collections) are natural numbers.
* **Loops that may not terminate** are fuel-indexed programs `Prog α = Nat → Run α`;
  `Returns p a` means "for all large enough fuel the result is `a`", `Diverges p` means "no fuel is enough",
  `Panics p` is the analogous statement for panics. Bounded `for` loops are folds.
* **Hash maps / sets** are association lists / lists with distinct keys. Their iteration order is arbitrary in Rust; here the
  API-reachability predicate `Built` is closed under arbitrary permutation of the map entries, so theorems
  over all `Built` graphs hold for all iteration orders.
* **BinaryHeap** is an abstract structure (carrier, push, pop) whose laws are: nothing lost or invented, pop
  returns a maximal element. Tie-breaking is thus arbitrary. A concrete instance shows the laws are satisfiable.
* **u64 ids** are Lean `UInt64`; ids in text are decimal.
* **i64 scores** are integers with checked operations where the code adds or multiplies them.
* **Closures** (edge costs, heuristics, weights, capacities) are pure functions.
* **Text** is a list of Unicode scalar values. Files and typed answers as bytes, including bytes that are not UTF-8, are modelled in
  `Model/Bytes.lean`, which reduces reading and writing them to the text level (C99). `Model/Reads.lean` reduces single read calls
  (short reads, interruptions, failures) to the byte level (C113).
* **File system**: only the state the tools touch (graph directory, command file content, lock file); `write`
  is modelled at the granularity of chunks handed to the OS; a crash keeps a prefix of the data.

## Trusted base

* Lean's kernel and the axioms `propext`, `Classical.choice`, `Quot.sound` (nothing else is used; no
  `native_decide`, no added axioms).
* The translation by hand from Rust to Lean. It agrees with all unit tests of /repo (`Verif/Tests/*`; the texts of the error messages they
  compare are in `Model/Messages.lean`).
* The assumptions above on std (`HashMap`, `HashSet`, `Vec`, `VecDeque`, `BinaryHeap`, string/number formatting
  and parsing, `BufRead::lines`) and on the `regex` crate (`Model/Regex.lean`: its engines agree with the leftmost-first search; the recognisers used elsewhere are proved equal to it, C134). Reading and writing integers is itself modelled, byte by byte, in `Model/Num.lean` (C135).
* The concurrent model (`Model/Concurrent.lean`) runs any number of additions/removals, queries, gc-build and gc-init processes, step by step,
  with an open file identified by its path. `Model/Unlink.lean` adds gc-clean and gc-random; there an open command file is an inode that
  outlives its name. `remove_dir_all` lists `.graph`, removes the command file, removes the other entries (one step), removes `.graph`.
* `==` on graphs is the derived one: equality of hash maps (same keys, equal values) with `Vec` values compared in order
  (`Model/Equality.lean`).
* Standard output (`Model/Stream.lean`): std's line buffer, counted in characters; one call of `print!` is one piece; a write that fails
  makes `print!` panic (std ignores a closed descriptor, EBADF; this is not modelled).
* Command lines (`Model/Clap.lean`, `Model/Cli.lean`): the declarations are those of the binaries; the parser is that part of clap 2.33.0 they use,
  written from knowledge of clap (its source was not available here). Arguments are valid UTF-8.
* Not modelled: `command/src/path_formatter.rs` (all functions are `unimplemented!()`), the texts clap prints (help, version, errors), terminal output formatting other than what a property mentions (texts printed are in `Model/Main.lean`, `Model/Cycle.lean`, `Model/Output.lean`),
  `gc-random`'s random number generator (any stream of numbers is allowed), OS-level I/O errors outside `Model/Disk.lean` (full disk) and `Model/Faults.lean` (any call of a command that changes the stored graph may fail).
  Killed processes are modelled in `Model/Crash.lean`: every system call that changes the file system is a step, any beginning of a text that is being written may have reached the file (nothing written earlier is lost). Power failures are modelled in `Model/Power.lean` for file systems that bring changes to the disk in the order in which they were made and, for sessions of gc-init, gc-add and gc-delete, in any order for different files; reordered or partly written blocks of one file are not modelled.

## Plan per property

| id | property | how |
|---|---|---|
| C01 | Mutation histories behave like a set-based digraph | Refinement: `SetGraph` (vertex/edge predicates) with textbook command semantics; induction on the history with the WF invariant of the edge map. |
| C02 | Listings are complete, duplicate free and closed | Invariant WF of every API-reachable graph (`Built`), listings characterised under WF. |
| C03 | Neighbour queries and degrees are exact | Same invariant; counts follow from duplicate-freeness. |
| C04 | edge_count is the number of edges | FALSE in general (self-loops): concrete counterexample + exact formula edge_count = (2*nonloops+loops)/2; `_partial` for loop-free graphs. |
| C05 | Mutators report what they did | Case analysis under WF. |
| C06 | Commands are idempotent | Corollary of C01's refinement. |
| C07 | as_commands rebuilds the graph | Refinement applied to the generated command list. |
| C08 | revert undoes a command | Involution proved; undo FALSE (RemoveVertex with edges, AddEdge creating endpoints): witnesses + exact condition as `_partial`. |
| C09 | gcmd save/read round-trip | Text model of files as character lists; own decimal printer/parser; round trip via C07/C11. |
| C10 | tgf save/read round-trip | As C09 for TGF. |
| C11 | Command lines are faithfully encoded | Model of the four regexes as recognisers; print/parse inverse; acceptance iff independent grammar. |
| C12 | Files are read in order, comments skipped, first error located | Induction over lines, for both formats. |
| C13 | Reading a text file never panics | FALSE (ids >= 2^64, non-ASCII digits): witnesses; exact panic condition for both formats as `_partial`. |
| C14 | Appending commands extends the stored graph | Concatenation lemma for line splitting; missing final newline is a proven counterexample. |
| C15 | A crash while appending never invents data | FALSE (mid-line truncation changes an id): witness; crash at a line boundary proved as `_partial`; exact behaviour of mid-line truncation. |
| C16 | TGF labels are ignored | FALSE (label starting with digits): witness; `_partial` for labels not of that shape, and an exact description of the labels, of TGF lines, and of the graph of a whole file. |
| C17 | gc-build preserves the graph | Graph preservation proved; crash part FALSE (truncate, then write): witness. |
| C18 | Path queries | Direct list lemmas vs. index-based specification. |
| C19 | Complete-path constraint checking implements the documented meaning | Structural induction on constraint expressions against a denotational meaning. |
| C20 | Partial checking never prunes a solution | Structural induction; score monotonicity as hypothesis. The converse for simple constraints. |
| C21 | Ordered-vertices constraint | Characterisation against an index-based specification. |
| C22 | validate accepts compatible constraints and rejects only contradictory ones | FALSE (empty list rejected by the cycle test): witness; exact acceptance characterisation; soundness of the other rejections; the error returned names the contradiction that is there (`C22_error_describes`). |
| C23 | Command-line constraint options mean what they say | Per-option theorems; max-score FALSE: witness. |
| C24 | Depth-first iteration visits exactly the reachable vertices once | Worklist invariant (generic in the container), measure for termination. |
| C25 | Breadth-first iteration visits exactly the reachable vertices once, nearest first | As C24 plus FIFO level invariant; exact order: each vertex's newly found out-neighbours in turn (`C25_level_order`). |
| C26 | Depth-first order | FALSE: witness against the 4-point preorder characterisation; `_partial`: exact order on every graph as the preorder of the tree of first finders. |
| C27 | Depth-first path iteration enumerates every simple path once | Worklist-of-paths invariant: multiset of (yielded + descendants of stack) is the set of simple paths; also the exact order. |
| C28 | Breadth-first path iteration enumerates every simple path once, shortest first | As C27 plus length ordering. |
| C29 | Best-first iteration reaches every reachable vertex once | Generic worklist invariant with abstract heap. |
| C30 | Search queues keep their discipline | Operation-sequence refinement; BinaryHeap is an abstract lawful max-heap. `C30_std_heap`: the array algorithm of std (`Model/StdHeap.lean`) meets these laws, by the heap invariant of sift up and sift down. |
| C31 | Constrained best-first iteration produces exactly the unpruned walks | Invariant over partial runs + fairness for unit weights. |
| C32 | shortest_path finds a path exactly when one exists | Worklist invariant. |
| C33 | gc-short-path is optimal | Dijkstra-like invariant for unit weights with arbitrary tie-breaking. |
| C34 | A* is optimal for admissible consistent heuristics | FALSE: witnesses (vertices are closed when discovered). `_partial`: true when the cost of an edge, reduced by the heuristic, depends only on its target (invariant of the search: yielded items are no more expensive than queued ones, and every item was added by its cheapest predecessor). The same invariant with bounds instead of costs limits how far the answer is from the optimum for any costs. |
| C35 | Constrained search returns only valid answers | Invariant over runs. |
| C36 | Constrained search is optimal | Invariant: every satisfying walk has a prefix in the queue. |
| C37 | Constrained search terminates | Termination when a solution exists (finitely many walks of bounded length); divergence witness; exact condition for the answer "not reachable"; termination with MaxLength / no-cycle as `_partial`. |
| C38 | topological_sort output is a topological order | Kahn invariant; FALSE with exactly one self-loop: witness; `_partial` for loop-free graphs. |
| C39 | topological_sort succeeds exactly on acyclic graphs | As C38. |
| C40 | DAG shortest paths are correct | Topological-order induction. |
| C41 | DAG shortest paths never panic | FALSE: witness order; `_partial`: exact panic condition / no panic when everything later is reachable. |
| C42 | DAG longest paths are correct | Duality with C40; negating the weight `i64::MIN` panics (`C42_min_weight_panics`); with small weights it panics exactly as in C41 (`C42_panics_iff`). |
| C43 | Bellman-Ford is exact | Relaxation invariant, induction on rounds = walk length; checked i64 arithmetic with explicit no-overflow bound. |
| C44 | Bellman-Ford detects negative cycles | Potential argument over cycles in both directions. |
| C45 | SPFA terminates exactly without reachable negative cycles and is exact | Termination measure on simple walks; divergence by potential argument. |
| C46 | Shortest path algorithms agree | Corollary of exactness theorems. |
| C47 | Hamiltonian path enumeration | Via C27. |
| C48 | Cycle enumeration is sound | Invariant of the path stack; distinctness through the seen set. |
| C49 | Cycle enumeration is complete | FALSE: witness; `_partial`: all cycles reachable from the start vertices. |
| C50 | Cycle queries | List lemmas on the enumerated list. |
| C51 | Hamiltonian cycle search | Via C48/C49 and strong connectivity forced by a Hamiltonian cycle. |
| C52 | Canonical cycles | List rotation lemmas. |
| C53 | gc-cycle filters | Vertex/length filters proved; edge filters FALSE for the closing edge: witness. |
| C54 | max_flow returns a feasible flow of the reported value | Loop invariant: feasibility and value; checked u64 arithmetic. |
| C55 | max_flow is maximum | FALSE: witness network; `_partial`: value <= every cut, maximum <= value times half the number of vertices, maximum in special classes; exactly when it is the maximum (`C55_maximum_iff_partial`, residual graph and cuts); a family of networks on which 1 is reported and k is possible (`C55_unbounded_counterexample`: the search finds a shortest path, which blocks all the others). |
| C56 | max_flow terminates without panicking | Termination by strictly increasing value; start = end panics: witness. Otherwise the overflow panic is bounded from both sides by the values of feasible flows. |
| C57 | gc-add shapes | List lemmas. |
| C58 | Argument lists are parsed all-or-nothing | String model of u64 parsing. |
| C59 | Invalid constraint options are not silently dropped | FALSE: witness for every unparsable value; exact characterisation; every run is the same as without the invalid options. |
| C60 | gc-random builds a DAG with the requested size | Acyclicity for all random streams; edge count lower bound; termination/vertex count FALSE: witnesses. |
| C61 | The lock gives mutual exclusion | FALSE: two-process schedule as witness in a small-step model. |
| C62 | The lock is always released | Proved for undisturbed runs; block result lost when unlock fails: witness. |
| C63 | Concurrent additions are never lost | Small-step multi-process model with atomic O_APPEND writes of single-chunk batches; multi-chunk counterexample. |
| C64 | gc-init is idempotent and non-destructive; gc-clean removes the graph | File-system state machine. |
| C65 | CLI mutations report failure | FALSE: witness; characterisation of when the file changes. |
| C66 | Attribute mappings behave like finite maps | Refinement to functions. |
| C67 | gc-desc reports the real extremes and counts | Direct from C02. |
| C68 | gc-add is all or nothing | Proved per option; FALSE for several options in one call: witness. |
| C69 | gc-delete removes exactly the named vertices and edges | File-system state machine with C14 (appending to a command file). |
| C70 | Additions made while gc-build runs are not lost | Small-step model: FALSE (no lock): witness schedule; `_partial`: gc-build undisturbed after its load; for all schedules exactly what is stored and what is lost (`C70_exact_partial`). |
| C71 | gc-topo-sort end to end | Command model (load, sort, print) with C16-C18; parse failures propagated; FALSE part: see theorem notes. |
| C72 | gc-short-path end to end | Command model with C28-C33 (Dijkstra). |
| C73 | gc-csp end to end | Command model with C34-C43 (best-first search); divergence witnesses; `Spec/Announce.lean` describes the announced requirements from the options; `Spec/CspEnds.lean` and a pumping argument say exactly when it answers although nothing meets the options. |
| C74 | gc-cycle end to end | Command model with C48-C53. |
| C75 | Sessions of commands compose | Session = list of commands folded over the file system; refinement to set graphs by induction on the session. |
| C76 | gc-build and gc-init are neutral | Simulation between sessions with and without the inserted command. |
| C77 | Additions commute, are idempotent, can be undone | Algebra of command batches on set graphs, lifted through C75. |
| C78 | Queries during additions see whole batches | Small-step model with chunked reads: a reader has read a prefix of the append log, small batches are single writes. |
| C79 | An addition of any size is stored command by command | Invariant of `BufWriter`: write calls end at piece boundaries; readers that met the end of the file in the middle of a line re-join it. |
| C80 | Queries during gc-build see the stored graph | FALSE: witness schedules (empty graph, error, phantom edge); `_partial`: queries outside the writing phase, outcomes of a killed gc-build, and during the writing phase a beginning of the stored commands, at most one other command, and additions of parts of the stored graph (`Proofs/DuringBuild.lean`, any file size); `C80_alone` ties the small-step gc-build to the sequential one. |
| C81 | The output of gc-csp is unambiguous | The derived `Debug` text of constraints is a prefix code: induction on the constraint; the report is read back number by number. |
| C82 | Answers depend only on the graph | `SameGraph` (same vertices, same edges) transports walks, reachability, simple paths, cycles; the exactness theorems then give equal answers. |
| C83 | max_flow, cycle listing and DAG distances depend only on the graph | Two iteration orders of one graph give different answers (`_counterexample_`); equal answers under the hypotheses of the partial theorems of C55, C49 and C40 (`_partial`). |
| C84 | Queries after any session answer about the graph of the history | Session theorem C75 gives the loaded graph up to `SameGraph`; the algorithm theorems apply to it. |
| C85 | Shortest paths when the graph changes | Exactness of C33 before and after; splitting a simple walk at the new edge. |
| C86 | First initialisation races with other commands | gc-init as a job of the small-step model; two invariants, before and after the command file first exists. |
| C87 | gc-random makes graphs the queries recognise as DAGs | C60 composed with C71, C74 and C67 on the stored file. |
| C88 | Success means stored, also on a full disk | FALSE: model of BufWriter with limited space and errors lost on drop; witnesses for gc-add and gc-build; `_partial`: exact stored prefix and reports; agreement with the unlimited model when there is room. |
| C89 | Equality of graphs | FALSE in part: `==` compares adjacency lists, whose order comes from the history. Proved: equivalence, equal implies same graph, exact characterisation by insertion order; witness for the rest. |
| C90 | Answers are reproducible | Adjacency lists are the insertion order filtered (induction over histories); searches are functions of the outbound lists (congruence); two-state simulation over sessions for gc-build and save orders. |
| C91 | Commands recover from a crash | False. Killed processes as relations between file systems (`Model/Crash.lean`); invariant over sessions with kills; torn lines never become readable again (counting keywords in a line); counterexample. `C91_every_step`: the relations contain every state between two system calls of the small-step model (invariant per program counter). |
| C92 | Interrupted gc-init and gc-clean | Case analysis of the states a killed process may leave, for every file system; rerun from the session invariant of C91. |
| C93 | Interrupted gc-random | False. All outcomes listed; counterexample. |
| C94 | Concurrent commands with gc-clean | Inode model (`Model/Unlink.lean`); invariant with a ghost history per inode, relative to a moment in the past. False with gc-random: witness. `C94_same_without_clean`: simulation between the inode model and the path model. `C94_pieces_partial` to `C97_bytes_partial`: batches of any size (`Spec/Pieces.lean`, history of pieces instead of processes). |
| C95 | A removed graph does not come back | Same invariant, with the bound for inodes opened before that moment. False with gc-build: witness. |
| C96 | gc-clean loses no later additions | Same invariant; the inode does not change when no gc-clean runs. |
| C97 | A successful gc-clean removes everything | A moment without command file lies within a successful gc-clean; then C95. A failing gc-clean may have removed the graph: witness. |
| C98 | Several gc-build at once keep the graph | Invariant over interleaved gc-build and query processes for files of one buffer: every text in the file is empty or a saved form of the graph, all of the same length. Witnesses for the loss; for larger files a schedule that destroys the file, for every graph. |
| C99 | Files and answers are read as the text they encode | Byte model (`Model/Bytes.lean`): decoder against Lean's UTF-8 encoder, reading line by line, panic at the first line that is not UTF-8; writes are ASCII, so cuts between bytes are cuts between characters. |
| C100 | Library calls that change the stored graph | All calls are batches of commands under the lock; file-system case analysis and the algebra of command batches on set graphs. |
| C101 | Builds without overflow checks agree | `Model/Release.lean` repeats the functions with arithmetic, with wrapping operations; relation "equal unless the first panics" is preserved by sequencing, loops and iterators. |
| C102 | Builds without overflow checks give right answers | FALSE: witnesses; spfa hides every reachable negative cycle (for all graphs). `_partial`: always return, scores are weights of real walks modulo 2^64 (invariant), max_flow with an unwrapped ghost value. |
| C103 | gc-random honours --connected and --cycle | FALSE: both options are ignored; no stored graph has any cycle (from C60), witness for connectedness. |
| C104 | A broken standard output leaves no command half done | `Model/Output.lean`: the three programs that print and change files, with a standard output that takes n more lines; case analysis over the break points; agreement with the model without printing. |
| C105 | What gc-build and gc-clean report is true | The lines printed, from the same model; `Done.` only after the work is done. FALSE: self-loops (C04); `--silent` without `--force` prints the question. |
| C106 | Failing file-system calls do no lasting harm | `Model/Faults.lean`: every call may fail at any time, as relations; the invariants of the crash proofs (`Proofs/Killed.lean`) carried through every program. |
| C107 | Failing file-system calls are reported | Same model, with the `BufWriter` and its lost last flush. FALSE: counterexamples for every initialised graph; partial: beginnings of the lines, at most one buffer missing on success. |
| C108 | topological_sort lists vertices level by level | As C38, with the queue in the invariant: listed and waiting vertices are ordered by the length of the longest walk ending in them, waiting ones are at most one level apart. |
| C109 | Query commands print their answer while they run | `Model/Stream.lean`: programs as sequences of printed pieces, standard output with its line buffer and a limit on what it takes. Invariant of the buffer (arrived ++ buffered = printed); relation between each program and its whole answer of `Model/Main.lean`. |
| C110 | Comparisons agree with equality | `Model/Compare.lean`; laws of `Ord` by case analysis, dictionary order by induction; least rotation from C52. FALSE for scored paths (score only): counterexample for every two paths, weak order proved. |
| C111 | Messages and answers can be read back | Unique reading of numerals, bracketed lists and lines; kinds of messages told apart by their beginnings; for gc-desc by counting line ends from the end. |
| C112 | Shortest walks for weights of any size | Invariant on scores below `i64::MAX`; relaxation covers all walks whose prefixes stay below the default score; panics yield an overflowing walk; spfa ends because every round lowers a score that is bounded by the i64 range. |
| C113 | Files and answers are read whole or not at all | `Model/Reads.lean`: `read_until` of the standard library over a list of read calls; refinement to the byte model of C99. |
| C114 | Iterators can be called again and again | `Model/Objects.lean`: `next(&mut self)` with the state after `None`; items from the theorems about collecting, end states closed under `next`. |
| C115 | Graphs in different directories are independent | Frame: every call of every command (plain, killed, failing) keeps `OnlyOwn`; locality: two states that agree on the own paths give the same results (`Agree`); sessions by induction. |
| C116 | Command lines mean what they say | `Spec/Cli.lean`: a grammar of words (`Line`), conditions on the uses of arguments (`Admissible`) and their meaning, without the parser. Both directions: words of the grammar by induction on it, accepted words by induction on the words; defaults and checks pointwise. |
| C117 | Typed sessions | `shell` of typed lines reduces to `session` (C75) through C116. |
| C118 | Every documented option can be used | False: gc-build is always verbose, the options of gc-cycle for several vertices or edges take one value, negative numbers are refused as words of their own. Counterexamples for all lines; with an equality sign any value works. |
| C119 | Sessions at a terminal | `Model/Terminal.lean`: a process takes the words typed and ends with a text, an exit code and a file system; `terminal` runs processes one after the other on one file system, in any directories. `Spec/Terminal.lean` describes the same on sets of vertices and edges per directory, texts and exit codes, without the model. Proved by composing C116 (words), C75 (effects), C115 (frames), C71 to C74 (texts), C76 (generated graphs); `C119_ends*`: which processes end. |
| C120 | Searches take as many steps as the graph is large | `Spec/Work.lean`: `ReturnsWithin n`/`Needs n` bound the rounds of the loops of a program by its fuel; `Diamonds n` is a family of acyclic graphs with 3n+1 vertices. Upper bounds from the lists the iterators drain to (C20 to C33); lower bounds `2 ^ n` (counterexamples for gc-csp, max_flow, gc-cycle, hamiltonian paths) by a potential, the number of paths that extend the waiting ones, which a round lowers by at most one. |
| C121 | Searches take no more steps than there are paths | Same specification. `Proofs/Within.lean`: measures that every round lowers (the paths that extend the waiting ones; for the main loop of max_flow the number of unsaturated edges), and `DrainsWithin`, a bound for every call of an iterator that filters and `flat_map` preserve. |
| C122 | The manual in the README | `Spec/Manual.lean` lists the arguments as README.md does, without the builder calls of clap. The declarations have the same members (checked for the eleven binaries), then C116 carries over, as its grammar depends on members only. |
| C123 | Sessions on a disk with little room | `Model/DiskSession.lean` adds gc-init, gc-clean and gc-random to `Model/Disk.lean`. Main lemma: a command on the disk leaves the cut of what it leaves without a limit; the commands that append commute with cutting, by calls that do not see the length of the file. |
| C124 | Best-first iteration takes the best path found so far, and without ties nothing else decides | `Spec/BestOrder.lean` defines what has been found from the paths yielded alone (no queue, no visited set). Invariant: the paths found are those yielded and those queued; the visited vertices are the start and the out-neighbours of what was yielded. Two orders without ties are equal by induction on their beginnings. |
| C125 | Constrained search takes the best walk that waits, and without ties nothing else decides | The invariant of C31 says that the queue holds exactly what waits (`CInv.waits`). Two iterators over the same edges run in lockstep: their queues hold the same walks, so without ties they pop the same one. |
| C126 | Commands do not wait for each other | In the model with gc-clean (`Model/Unlink.lean`) the number of steps a process has left goes down with each of its own steps and does not change with the steps of others (`run_left`). A `BufWriter` makes at most one `write` call for each piece of text; a graph loaded from a text has no more edges, and at most twice as many vertices, as the text has lines. |
| C127 | gc-build compacts the command file | `Spec/Compact.lean`. The size of a saved graph is a sum over duplicate-free lists of its vertices and edges, so it depends on the sets only. Each line read as a command is at least as long as the line written for it (no numeral is shorter than the one `Display` writes), and an AddEdge line pays for three lines up to the factor three. |
| C128 | What iterators keep in memory | `Spec/Memory.lean`: the states an iterator passes through, including those between the rounds of a loop in `next`. For vertices: the search invariant (visited vertices are distinct and reachable). For stacks of paths: below the entry at index `i` lie at most as many entries as edges leave the vertices of its path before the last; these vertices differ, so the sum is at most the number of edges. For the breadth-first iterator on chains of diamonds: the number of continuations to the last vertex, summed over the queue, never falls below `2 ^ n`. |
| C129 | The numbers of the vertices do not matter | `Spec/Renamed.lean`: `Renamed ρ g g'`. Every notion of the specifications (walks, reachability, cycles, Hamiltonian paths, constraints, flows) is shown to be carried over by `ρ`; the exactness theorems C01–C55 then give the same answers. `max_flow` and the list of cycles depend on the iteration order of the hash map (C83), hence partial with the conditions of C55 and C49. |
| C130 | Turning all edges round | `Spec/Renamed.lean`: `Reversed g g'`. As C129: walks are reversed lists, cycles are turned from their first vertex, flows keep their value since the net flow out of the start is the net flow into the end. Counterexamples: a loop at a dead end (sorted one way only), a cycle behind the only root, and a network whose greedy value differs. |
| C131 | What more vertices and edges can change | `Spec/Larger.lean`: `Larger g g'`, `MoreEdges g g'`. Walks, cycles and feasible flows of the smaller graph are ones of the larger; the exactness theorems give the rest. Counterexamples: an edge that makes a short path blocking two others, and an edge into the only root. |
| C132 | What a power failure leaves | False: nothing in the code calls `sync_all` or `sync_data`. `Model/Power.lean`: `PowerLoss` relates the state before a session to the state at any moment of it (file systems that write back in the order of the changes), `PowerLossEach` takes each path from a moment of its own. C91 and C75 give what is left. Counterexamples: a successful gc-add that is lost, a successful gc-build that loses the old graph as well. |
| C133 | How the path is written does not matter | `Model/Paths.lean` models the commands from the text of `--path` on: `Path::components`, `parent`, `join`, and `create_dir_all` as the recursion of `mkdir` calls that std makes. `Spells` (Spec/Paths) says in terms of pieces between slashes which directory a text means. Proved: the commands agree with `Model/Store.lean` (which starts from the directory), by induction on the missing directories and an invariant that the directories on the way stay. `..` is excluded. |
| C134 | Lines are read as the patterns say | `Model/Regex.lean`: the six patterns as texts, `Regex::new` for that part of the syntax, and a leftmost-first search with backtracking. `Spec/Regex.lean` says without a search when a cut of the line fits a pattern. Proved: the search is sound, complete, leftmost and takes the longest repetition first; the recognisers of `Model/Format.lean` give the same captures, so the two models of `parse_line` agree. |
| C135 | Numbers are read and written exactly | `Model/Num.lean`: std's `from_str_radix` on bytes, with the loop without checks for few digits and 64-bit wrapping there, and `Display` with the table of two digits. Proved: both loops agree with the meaning of numerals (`Spec/Args.lean`), written numbers are `Decimal` without a bound, round trips, and the conversions of `Model/Text.lean` and `Model/Main.lean` are these. |
| C136 | Constraints agree with changes of the graph | No new code. `Spec/Options.lean`: `FindsWalk`, the search of gc-csp ends with a walk of `k` edges; `Cost` (C85) is the same for gc-short-path. Proved from C33 and C35-C37: both are the least length of the walks with a property, and walks of the changed graph are the walks that meet the constraint. |
| C137 | What cannot be reached does not matter | No new code. `Spec/SameFrom.lean`: `SameFrom`, two graphs have the same edges at the vertices reachable from `s`; `FarFrom`, commands that keep this. Walks, reachability and simple paths from `s` are the same, so the exact characterisations of C24-C28, C33, C35-C37, C40 and C112 give the same results. False for dag_shortest_paths, which can panic because of vertices that cannot be reached (`C137_counterexample`); partial: the scores if it returns. |
| C138 | Different queries agree about the same graph | No new code. From the exact characterisations of C24-C28, C33, C35-C37, C39, C47 and C50: both sides are translated to walks (`Proofs/Agree.lean`: a shortest walk is simple, a cycle is a simple path and the edge back). The conditions on self-loops (topological order) and on the roots (girth) are those of C39 and C49. |
| C139 | max_flow does not depend on the unit of the capacities, nor on edges of capacity 0 | No new code. Simulation: `Proofs/Scaled.lean` runs both networks in step (the same path is found in each round, with a multiplied residual capacity); `Proofs/NoCapacity.lean` shows that the queue of the smaller graph is that of the larger one without the paths along the removed edge. True although the value need not be maximal (C55). |
| C140 | Units and potentials of the weights do not matter for weighted shortest and longest paths | No new code. Along a walk the potential telescopes (`Proofs/Reweighted.lean`), so the lightest and heaviest walks and the negative cycles are the same; with C40–C45 the answers of the four functions follow. |
| C141 | Scores reported for different vertices and different starts fit together | No new code. `Spec/Fit.lean` says what the three functions report. The proofs join and split walks (`Proofs/Fit.lean`) and use C40, C42, C43, C45. |
| C142 | Best-first iteration and shortest_path use scores only by comparing them | No new code. Every path found is yielded, so is simple, and the least one is the same for both scores: an order for one score is one for the other; with C124 it is unique without ties. |
| C143 | How constraints are written does not matter | No new code. `Spec/Rewrite.lean` lists the laws. Both checks give the same for rewritten constraints, so the searches are the same program. False below `Not` (a double negation is not used for pruning, so a search need not end) and for `validate` with `And`: counterexamples. |
| C144 | Which graph commands can be swapped | No new code. `Spec/Swap.lean` lists the four conflicts. From the set semantics (C01) two commands commute iff they do not conflict; batches by induction over the permutation. |
| C145 | The last command about a vertex or an edge decides | No new code. `Spec/LastWord.lean` says what a batch does to one vertex or edge without running it; induction over the batch from its end. Undoing by induction with C08. |
| C146 | Which weights and capacities are used | No new code. `Proofs/OnlyReached.lean`: every vertex with a score is reachable, so two runs with weights that agree there are the same step by step. The converse compares weight 0 with weight -1 on one edge through Bellman's equations (C141). |
| C147 | On which paths scores are asked for | No new code. `Spec/Chordless.lean`; `Proofs/OnlyWalks.lean`: the neighbours of all vertices of a queued path except its last were visited, so a new vertex makes no shortcut; two runs whose closures agree there are the same step by step. Conversely a search whose scores are negative on the beginnings of one path only follows that path (`Props/EachPath.lean`, from C124). `Props/OnlyUnpruned.lean`: the queue of the constrained search holds unpruned walks (as in C31) only. |
| C148 | Best-first searches panic only where the closures do | No new code. `Spec/NoScore.lean`; `Proofs/PanicOrigin.lean`: with the invariants of C147 a queued path is never empty, so a round can panic in the closure or the sum only; an exhausted search has expanded every unpruned walk (C31). |
| C149 | Self-loops do not matter for paths without repetition | No new code. `Spec/Loops.lean`; a list without repetition is a walk of both graphs or of neither; with the exact descriptions of C24, C25, C27, C28, C33, C36, C47. A walk without its loops is not heavier (`Props/LoopWeights.lean`, with C112). |
| C150 | What does not lead to the end does not matter | No new code. `Spec/SameTo.lean`, the mirror image of C137: the walks to `t` are the same; with C24, C25, C27, C28, C33, C36 and C112. |
