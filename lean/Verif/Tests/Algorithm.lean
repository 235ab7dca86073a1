/- The tests of core/src/search/a_star.rs (78-143), core/src/algorithm/hamiltonian.rs (35-169), max_flow.rs (229-388), longest_path.rs (39-147),
shortest_path.rs (159-353), topo_sort.rs (75-206) and core/src/iter/iter_cycle.rs (163-353). The tests on a chain of 25000 vertices are in
`Verif/Tests/Chain.lean`. Loops run with more rounds than they need. -/
import Verif.Tests.Iter
import Verif.Model.Cycle
import Verif.Model.MaxFlow
import Verif.Model.ShortestPath
namespace GC.Tests

/-! core/src/search/a_star.rs. Two of the four tests are `assert![true]`. -/

/-- The cost of the tests: the sum of the ids of the vertices of the path. -/
def sumIds : ScoreFn := fun _ path => path.vertices.foldl (fun acc v => acc.bind fun a => addI64 a v.id.toNat) (.done 0)

/-- `shortest_path_should_find_the_shortest_path_when_it_exists` -/
example : AStar.shortestPath StdHeap.scoredHeap sample sumIds AStar.zeroHeuristic 1 7 20 = .done (some ⟨pathOf [1, 4, 6, 7], 18⟩) := by
  decide +kernel
/-- `shortest_path_should_return_none_when_no_path_exists` -/
example : AStar.shortestPath StdHeap.scoredHeap sample sumIds AStar.zeroHeuristic 1 8 20 = .done none := by decide +kernel

/-! core/src/algorithm/hamiltonian.rs -/

/-- `iter_hamiltonian_paths(..).collect().len()`. -/
def hamiltonianCount (g : DirectedGraph) (rounds : Nat) : Run Nat :=
  (Prog.collect (Hamiltonian.next g) (Hamiltonian.iter g) rounds).bind fun l => .done l.length

/-- `is_hamiltonian_should_return_true_for_an_empty_graph_by_convention` -/
example : Hamiltonian.isHamiltonian .new 10 = .done true := by decide +kernel
/-- `first_path_should_return_none_if_there_is_no_hamiltonian_path` -/
example : Hamiltonian.firstPath (graphOf [(1, 2), (3, 4), (2, 4), (2, 5), (4, 6), (5, 7), (6, 7), (7, 8)]) 100 = .done none := by
  decide +kernel
/-- `first_path_should_return_a_path_if_graph_has_one_hamiltonian_cycle` -/
example : (Hamiltonian.firstPath (graphOf [(1, 2), (2, 3), (3, 4), (4, 5), (5, 1), (2, 4)]) 100).bind
    (fun r => .done (r.map Path.size)) = .done (some 5) := by decide +kernel
/-- `iter_hamiltonian_paths_should_return_all_distinct_hamiltonian_path_1` -/
example : hamiltonianCount (graphOf [(1, 2), (2, 3), (3, 4), (4, 5)]) 100 = .done 1 := by decide +kernel
/-- `iter_hamiltonian_paths_should_return_all_distinct_hamiltonian_path_2` -/
example : hamiltonianCount (graphOf [(1, 2), (2, 3), (3, 4), (4, 5), (5, 1)]) 100 = .done 5 := by decide +kernel
/-- `iter_hamiltonian_paths_should_return_all_distinct_hamiltonian_path_3`, `.._4` (the same graph) -/
example : hamiltonianCount (graphOf [(1, 2), (2, 3), (3, 4), (4, 5), (5, 1), (2, 4), (5, 3), (3, 1)]) 100 = .done 10 := by decide +kernel

/-! core/src/algorithm/max_flow.rs -/

/-- The helper `cap_edge`: edges with capacities; the capacity function is 0 elsewhere. -/
def capacityOf (es : List (Nat × Nat × Nat)) (e : Edge) : UInt64 :=
  ((es.find? fun t => edge t.1 t.2.1 = e).map fun t => UInt64.ofNat t.2.2).getD 0

/-- The result of `max_flow` on a network given by its edges and capacities: the value, and flow and capacity of the listed edges. -/
def flowOf (es : List (Nat × Nat × Nat)) (start end_ : VertexId) (rounds : Nat) (asked : List (Nat × Nat)) :
    Run (Nat × List (Option (Nat × Nat))) :=
  (MaxFlow.maxFlow (graphOf (es.map fun t => (t.1, t.2.1))) (capacityOf es) start end_ rounds).bind fun r =>
    .done (r.1, asked.map fun e => HMap.get? r.2 (edge e.1 e.2))

/-- `max_flow_should_compute_maximum_flow_in_a_simple_graph_1` -/
example : flowOf [(0, 1, 16), (0, 2, 13), (1, 3, 12), (1, 2, 10), (2, 1, 4), (2, 4, 14), (3, 5, 20), (3, 2, 9), (4, 3, 7), (4, 5, 4)] 0 5 100
    [(0, 1), (1, 3), (3, 5), (0, 2), (2, 1), (2, 4), (4, 3), (4, 5), (1, 2), (3, 2)] =
    .done (23, [some (12, 16), some (12, 12), some (19, 20), some (11, 13), some (0, 4), some (11, 14), some (7, 7), some (4, 4),
      some (0, 10), some (0, 9)]) := by decide +kernel

/-- `max_flow_should_compute_maximum_flow_in_a_simple_graph_2` -/
example : flowOf [(0, 1, 8), (0, 2, 9), (0, 3, 7), (1, 4, 2), (1, 5, 6), (2, 4, 4), (2, 5, 6), (2, 6, 4), (3, 5, 1), (3, 6, 5), (4, 7, 8),
      (5, 7, 7), (6, 7, 9)] 0 7 100
    [(0, 1), (0, 2), (0, 3), (1, 4), (1, 5), (2, 4), (2, 5), (2, 6), (3, 5), (3, 6), (4, 7), (5, 7), (6, 7)] =
    .done (22, [some (8, 8), some (9, 9), some (5, 7), some (2, 2), some (6, 6), some (4, 4), some (1, 6), some (4, 4), some (0, 1),
      some (5, 5), some (6, 8), some (7, 7), some (9, 9)]) := by decide +kernel

/-- `max_flow_should_compute_maximum_flow_in_a_simple_graph_3` -/
example : flowOf [(0, 1, 10), (0, 2, 5), (0, 3, 15), (1, 2, 4), (1, 4, 9), (1, 5, 15), (2, 3, 4), (2, 5, 8), (3, 6, 16), (4, 5, 15),
      (4, 7, 10), (5, 6, 15), (5, 7, 10), (6, 2, 6), (6, 7, 10)] 0 7 200
    [(0, 1), (0, 2), (0, 3), (1, 2), (1, 4), (1, 5), (2, 3), (2, 5), (3, 6), (4, 7), (4, 5), (5, 6), (5, 7), (6, 2), (6, 7)] =
    .done (28, [some (10, 10), some (5, 5), some (13, 15), some (0, 4), some (9, 9), some (1, 15), some (0, 4), some (8, 8), some (13, 16),
      some (9, 10), some (0, 15), some (0, 15), some (9, 10), some (3, 6), some (10, 10)]) := by decide +kernel

/-! core/src/algorithm/shortest_path.rs and longest_path.rs -/

/-- The edges and weights of the helper `build_test_weighted_dag`. -/
def weighted : List (Nat × Nat × Int) :=
  [(1, 2, 3), (1, 3, 6), (2, 3, 4), (2, 4, 4), (2, 5, 11), (3, 4, 8), (4, 5, -4), (3, 7, 11), (4, 6, 5), (4, 7, 2), (5, 8, 9), (6, 8, 1),
    (7, 8, 2)]

/-- The graph of the helper `build_test_weighted_dag`. -/
def weightedDag : DirectedGraph := graphOf (weighted.map fun t => (t.1, t.2.1))

/-- The scoring function of the helper `build_test_weighted_dag`; it is only called for edges of the graph. -/
def weightOf (e : Edge) : Int := ((weighted.find? fun t => edge t.1 t.2.1 = e).map fun t => t.2.2).getD 0

/-- `try_dag(..).unwrap()`. -/
def dagOf (g : DirectedGraph) : Run TopoSort.DAG := (TopoSort.tryDag g 50).bind Run.unwrap

/-- Number of entries, and the entries of the vertices 1 to 8. -/
def entries (m : ShortestPath.Scores) : Nat × List (Option ScoredPath) :=
  (m.length, [1, 2, 3, 4, 5, 6, 7, 8].map fun v => HMap.get? m v)

/-- What the tests of the shortest paths expect. -/
def shortestEntries : Nat × List (Option ScoredPath) :=
  (8, [some ⟨pathOf [1], 0⟩, some ⟨pathOf [1, 2], 3⟩, some ⟨pathOf [1, 3], 6⟩, some ⟨pathOf [1, 2, 4], 7⟩, some ⟨pathOf [1, 2, 4, 5], 3⟩,
    some ⟨pathOf [1, 2, 4, 6], 12⟩, some ⟨pathOf [1, 2, 4, 7], 9⟩, some ⟨pathOf [1, 2, 4, 7, 8], 11⟩])

/-- `dag_shortest_path_should_find_the_shortest_path_in_a_dag` -/
example : (dagOf weightedDag).bind (fun dag => ShortestPath.dagShortestPath dag weightOf 1 8 50) =
    .done (some ⟨pathOf [1, 2, 4, 7, 8], 11⟩) := by decide +kernel
/-- `dag_shortest_paths_should_find_all_shortest_paths_from_source_vertex_in_a_dag` -/
example : ((dagOf weightedDag).bind fun dag => ShortestPath.dagShortestPaths dag weightOf 1 50).bind (fun m => .done (entries m)) =
    .done shortestEntries := by decide +kernel
/-- `bfm_shortest_paths_should_find_all_shortest_paths_from_source_vertex_in_a_dag` -/
example : (ShortestPath.bellmanFord weightedDag weightOf 1).bind (fun r => .done (r.map entries)) = .done (some shortestEntries) := by
  decide +kernel
/-- `spfa_shortest_paths_should_find_all_shortest_paths_from_source_vertex_in_a_dag` -/
example : (ShortestPath.spfa weightedDag weightOf 1 50).bind (fun m => .done (entries m)) = .done shortestEntries := by decide +kernel
/-- `dag_longest_path_should_find_the_longest_path_in_a_dag` -/
example : (dagOf weightedDag).bind (fun dag => LongestPath.dagLongestPath dag weightOf 1 8 50) = .done (some ⟨pathOf [1, 2, 5, 8], 23⟩) := by
  decide +kernel
/-- `dag_longest_paths_should_find_all_longest_paths_from_source_vertex_in_a_dag` -/
example : ((dagOf weightedDag).bind fun dag => LongestPath.dagLongestPaths dag weightOf 1 50).bind (fun m => .done (entries m)) =
    .done (8, [some ⟨pathOf [1], 0⟩, some ⟨pathOf [1, 2], 3⟩, some ⟨pathOf [1, 2, 3], 7⟩, some ⟨pathOf [1, 2, 3, 4], 15⟩,
      some ⟨pathOf [1, 2, 5], 14⟩, some ⟨pathOf [1, 2, 3, 4, 6], 20⟩, some ⟨pathOf [1, 2, 3, 7], 18⟩, some ⟨pathOf [1, 2, 5, 8], 23⟩]) := by
  decide +kernel

/-! core/src/algorithm/topo_sort.rs -/

/-- The helper `set`: two lists with the same elements. -/
def sameSet (a b : List VertexId) : Bool := a.all (b.contains ·) && b.all (a.contains ·)

/-- `topological_order_on_an_empty_graph_is_empty` -/
example : TopoSort.topologicalSort .new 10 = .done (some []) := by decide +kernel
/-- `topological_order_on_a_dag_returns_correct_order_1` -/
example : (TopoSort.topologicalSort
    (graphOf [(5, 11), (11, 2), (7, 11), (11, 9), (11, 10), (7, 8), (8, 9), (3, 8), (3, 10)]) 50).bind
      (fun r => .done (r.map fun l => sameSet (l.take 3) [7, 3, 5] && sameSet ((l.drop 3).take 2) [11, 8] && sameSet (l.drop 5) [2, 9, 10])) =
    .done (some true) := by decide +kernel
/-- `topological_order_on_a_dag_returns_correct_order_2` -/
example : (TopoSort.topologicalSort (graphOf [(1, 2), (3, 4), (2, 4), (4, 6), (2, 5), (5, 7), (6, 7), (7, 8)]) 50).bind
      (fun r => .done (r.map fun l => sameSet (l.take 2) [1, 3] && sameSet ((l.drop 2).take 2) [2, 4] &&
        sameSet ((l.drop 4).take 2) [5, 6] && l.drop 6 == [7, 8])) = .done (some true) := by decide +kernel
/-- `topological_order_on_a_graph_with_a_cycle_is_empty_2` -/
example : TopoSort.topologicalSort
    (graphOf [(5, 11), (11, 2), (7, 11), (11, 9), (11, 10), (7, 8), (8, 9), (3, 8), (3, 10), (10, 5)]) 50 = .done none := by decide +kernel
/-- `topological_order_on_a_graph_with_a_cycle_is_empty_3` -/
example : TopoSort.topologicalSort (graphOf [(1, 3), (3, 4), (4, 7), (4, 5), (5, 7), (5, 6), (2, 3), (6, 1), (6, 3)]) 50 = .done none := by
  decide +kernel

/-! core/src/iter/iter_cycle.rs -/

/-- The helper `cycle`. -/
def cycle (ids : List Nat) : Option Cycle := Cycle.fromVertices (pathOf ids).vertices

/-- The helper `cano_cycle(..).unwrap()`. -/
def canoCycle (ids : List Nat) : Run Cycle := (Run.unwrap (cycle ids)).bind Cycle.canonical

/-- The canonical forms of the cycles found, as a list. -/
def cyclesOf (g : DirectedGraph) (rounds : Nat) : Run (List Cycle) :=
  (CycleAlg.takeAll g rounds).bind fun cs => Run.forEach (fun acc c => (Cycle.canonical c).bind fun c => .done (acc ++ [c])) [] cs

/-- The same cycles, in any order (the tests sort them). -/
def sameCycles (a : Run (List Cycle)) (b : List Cycle) : Bool :=
  match a with
  | .done l => l.length == b.length && l.all (b.contains ·) && b.all (l.contains ·)
  | _ => false

/-- `canonical_cycle_should_always_start_with_smallest_vertex` -/
example : canoCycle [7, 5, 1, 2, 4] = Run.unwrap (cycle [1, 2, 4, 7, 5]) ∧ canoCycle [7, 5, 22, 2, 4] = Run.unwrap (cycle [2, 4, 7, 5, 22]) ∧
    canoCycle [1, 5, 7, 2, 4] = Run.unwrap (cycle [1, 5, 7, 2, 4]) ∧ canoCycle [1, 5, 7, 2, 4] ≠ .panicked := by decide +kernel
/-- `extract_canonical_cycle_from_last_should_return_none_if_there_is_no_cycle_at_all` -/
example : CycleIter.extractCanonicalCycleFromLast (pathOf [7, 3, 2, 5, 8, 9, 12]) = .done none := by decide +kernel
/-- `extract_canonical_cycle_from_last_should_return_none_if_there_is_no_cycle_involving_the_last_element` -/
example : CycleIter.extractCanonicalCycleFromLast (pathOf [7, 3, 2, 5, 8, 9, 5, 12]) = .done none := by decide +kernel
/-- `extract_canonical_cycle_from_last_should_return_a_cycle_involving_the_last_element_if_it_exists` -/
example : CycleIter.extractCanonicalCycleFromLast (pathOf [7, 3, 2, 5, 8, 9, 2]) = .done (cycle [2, 5, 8, 9]) ∧
    CycleIter.extractCanonicalCycleFromLast (pathOf [1, 3, 4, 5, 6, 1]) = .done (cycle [1, 3, 4, 5, 6]) := by decide +kernel
/-- `length_of_cycle_is_number_of_vertices` -/
example : (cycle [2, 3]).map Cycle.len = some 2 ∧ (cycle [2, 5, 8, 9]).map Cycle.len = some 4 ∧
    (cycle [2, 5, 8, 1, 3, 4]).map Cycle.len = some 6 := by decide +kernel
/-- `cycle_iterator_should_return_all_cycles_in_graph_1` -/
example : let g := graphOf [(5, 11), (11, 2), (7, 11), (11, 9), (11, 10), (7, 8), (8, 9), (3, 8), (3, 10), (10, 5)]
    CycleAlg.count g 100 = .done 1 ∧
    (CycleAlg.first g 100).bind (fun r => match r with
      | some c => c.canonical.bind fun c => .done (some c)
      | none => .done none) = .done (cycle [5, 11, 10]) := by decide +kernel
/-- `cycle_iterator_should_return_all_cycles_in_graph_2` -/
example : let g := graphOf [(1, 3), (3, 4), (4, 7), (4, 5), (5, 7), (5, 6), (2, 3), (6, 1), (6, 3)]
    CycleAlg.count g 100 = .done 2 ∧ sameCycles (cyclesOf g 100) [⟨[1, 3, 4, 5, 6]⟩, ⟨[3, 4, 5, 6]⟩] = true := by decide +kernel
/-- `cycle_iterator_should_return_all_cycles_in_graph_3` -/
example : let g := graphOf [(1, 2), (2, 3), (3, 4), (4, 5), (5, 1), (2, 4), (5, 3)]
    CycleAlg.count g 100 = .done 3 ∧ sameCycles (cyclesOf g 100) [⟨[1, 2, 3, 4, 5]⟩, ⟨[1, 2, 4, 5]⟩, ⟨[3, 4, 5]⟩] = true := by
  decide +kernel
/-- `cycle_iterator_does_not_work_on_a_all_disconnected_graph` -/
example : let g := graphOf [(1, 3), (3, 4), (4, 7), (4, 5), (5, 7), (5, 6), (2, 3), (6, 1), (6, 3), (10, 20), (20, 30), (30, 40), (40, 50),
      (50, 10), (20, 40), (50, 30)]
    CycleAlg.count g 100 = .done 2 ∧ sameCycles (cyclesOf g 100) [⟨[1, 3, 4, 5, 6]⟩, ⟨[3, 4, 5, 6]⟩] = true := by decide +kernel

end GC.Tests
