/- The tests of core/src/iter/iter_datastructure.rs (111-296), iter_depth.rs (116-264), iter_breadth.rs (107-249) and iter_best.rs (82-205).
`collect` runs with more rounds than it needs. The priority queues use the algorithm of the standard library. -/
import Verif.Tests.Common
import Verif.Props.StdHeap
namespace GC.Tests

/-- The graph of the tests of the iterators and of the search; 8 is not reachable from 1. -/
def sample : DirectedGraph := graphOf [(1, 2), (1, 4), (2, 3), (2, 5), (1, 5), (4, 5), (4, 6), (6, 7), (7, 2), (8, 2)]

/-- The cycle of the tests of the iterators. -/
def ring : DirectedGraph := graphOf [(1, 2), (2, 3), (3, 4), (4, 5), (5, 1)]

/-- `n` pops from a stack: the items and what is left. -/
def popsS {T : Type} : Nat → Stack T → Option (List T × Stack T)
  | 0, s => some ([], s)
  | n + 1, s => s.pop.bind fun r => (popsS n r.2).map fun q => (r.1 :: q.1, q.2)

/-- `n` pops from a queue: the items and what is left. -/
def popsQ {T : Type} : Nat → Queue T → Option (List T × Queue T)
  | 0, s => some ([], s)
  | n + 1, s => s.pop.bind fun r => (popsQ n r.2).map fun q => (r.1 :: q.1, q.2)

/-! core/src/iter/iter_datastructure.rs: Stack -/

/-- `stack_should_have_len_zero_when_empty` -/
example : (Stack.new : Stack Nat).stack.isEmpty = true := by decide +kernel
/-- `stack_should_store_all_pushed_entries` -/
example : let s := (((Stack.new.push 1).push 1).push 2).push 3
    s.stack.isEmpty = false ∧ s.stack.length = 4 := by decide +kernel
/-- `stack_should_pop_entries_in_lifo_order` -/
example : (popsS 4 ((((Stack.new.push 1).push 1).push 2).push 3)).map (fun r => (r.1, r.2.stack.isEmpty)) = some ([3, 2, 1, 1], true) := by
  decide +kernel
/-- `stack_pop_should_return_none_when_empty` -/
example : (Stack.new : Stack Nat).pop.isNone = true := by decide +kernel

/-! core/src/iter/iter_datastructure.rs: Queue -/

/-- `queue_should_have_len_zero_when_empty` -/
example : (Queue.new : Queue Nat).queue.isEmpty = true := by decide +kernel
/-- `queue_should_store_all_enqueued_entries` -/
example : let q := (((Queue.new.push 1).push 1).push 2).push 3
    q.queue.isEmpty = false ∧ q.queue.length = 4 := by decide +kernel
/-- `queue_should_pop_entries_in_fifo_order` -/
example : (popsQ 4 ((((Queue.new.push 1).push 1).push 2).push 3)).map (fun r => (r.1, r.2.queue.isEmpty)) = some ([1, 1, 2, 3], true) := by
  decide +kernel
/-- `queue_pop_should_return_none_when_empty` -/
example : (Queue.new : Queue Nat).pop.isNone = true := by decide +kernel

/-! core/src/iter/iter_datastructure.rs: MaxPriorityQueue and MinPriorityQueue -/

/-- The order of `usize`. -/
def leNat (a b : Nat) : Bool := decide (a ≤ b)

/-- The heap of the standard library for `usize`. -/
def maxHeap : BinaryHeap Nat leNat := StdHeap.stdHeap _
  (by intro a b; simp only [leNat, decide_eq_true_eq]; omega) (by intro a b c; simp only [leNat, decide_eq_true_eq]; omega)

/-- The heap of the standard library for `Reverse<usize>`. -/
def minHeap : BinaryHeap (Reverse Nat) (Reverse.le leNat) := StdHeap.stdHeap _
  (by intro a b; simp only [Reverse.le, leNat, decide_eq_true_eq]; omega)
  (by intro a b c; simp only [Reverse.le, leNat, decide_eq_true_eq]; omega)

/-- A `MaxPriorityQueue<usize>`. -/
abbrev MaxQ := MaxPriorityQueue Nat leNat maxHeap
/-- A `MinPriorityQueue<usize>`. -/
abbrev MinQ := MinPriorityQueue Nat leNat minHeap

/-- `n` pops: the items and the number of items left. -/
def popsMax : Nat → MaxQ → Option (List Nat × Nat)
  | 0, s => some ([], (maxHeap.items s.priorityQueue).length)
  | n + 1, s => s.pop.bind fun r => (popsMax n r.2).map fun q => (r.1 :: q.1, q.2)

/-- `n` pops: the items and the number of items left. -/
def popsMin : Nat → MinQ → Option (List Nat × Nat)
  | 0, s => some ([], (minHeap.items s.priorityQueue).length)
  | n + 1, s => s.pop.bind fun r => (popsMin n r.2).map fun q => (r.1 :: q.1, q.2)

/-- `max_priority_queue_should_have_len_zero_when_empty` -/
example : (maxHeap.items (MaxPriorityQueue.new : MaxQ).priorityQueue).isEmpty = true := by decide +kernel
/-- `max_priority_queue_should_store_all_enqueued_entries` -/
example : let q := ((((MaxPriorityQueue.new : MaxQ).push 1).push 1).push 2).push 3
    (maxHeap.items q.priorityQueue).isEmpty = false ∧ (maxHeap.items q.priorityQueue).length = 4 := by decide +kernel
/-- `max_priority_queue_should_pop_entries_in_decreasing_order` -/
example : popsMax 4 (((((MaxPriorityQueue.new : MaxQ).push 2).push 1).push 3).push 1) = some ([3, 2, 1, 1], 0) := by decide +kernel
/-- `max_priority_queue_pop_should_return_none_when_empty` -/
example : (MaxPriorityQueue.new : MaxQ).pop.isNone = true := by decide +kernel
/-- `min_priority_queue_should_have_len_zero_when_empty` -/
example : (minHeap.items (MinPriorityQueue.new : MinQ).priorityQueue).isEmpty = true := by decide +kernel
/-- `min_priority_queue_should_store_all_enqueued_entries` -/
example : let q := ((((MinPriorityQueue.new : MinQ).push 1).push 1).push 2).push 3
    (minHeap.items q.priorityQueue).isEmpty = false ∧ (minHeap.items q.priorityQueue).length = 4 := by decide +kernel
/-- `min_priority_queue_should_pop_entries_in_increasing_order` -/
example : popsMin 4 (((((MinPriorityQueue.new : MinQ).push 2).push 1).push 3).push 1) = some ([1, 1, 2, 3], 0) := by decide +kernel
/-- `min_priority_queue_pop_should_return_none_when_empty` -/
example : (MinPriorityQueue.new : MinQ).pop.isNone = true := by decide +kernel

/-! core/src/iter/iter_depth.rs -/

/-- The first two results of `next()`, and `collect`, are compared by these runs. -/
def nexts {σ α : Type} (next : σ → Prog (Option (α × σ))) (s : σ) : Run (Option α × Option α) :=
  (next s 1).bind fun r =>
    match r with
    | none => .done (none, none)
    | some (x, s) => (next s 1).bind fun r => .done (some x, r.map Prod.fst)

/-- `dfs_iterator_on_an_empty_graph_should_be_empty` -/
example : (nexts (DepthFirstIter.next .new) (DepthFirstIter.start .new)) = .done (none, none) := by decide +kernel
/-- `dfs_iterator_on_a_one_node_graph_should_return_one_node` -/
example : let g := (DirectedGraph.new.addVertex 1).2
    nexts (DepthFirstIter.next g) (DepthFirstIter.start g) = .done (some 1, none) := by decide +kernel
/-- `dfs_iterator_from_on_a_one_node_graph_should_return_the_only_node` -/
example : let g := (DirectedGraph.new.addVertex 1).2
    nexts (DepthFirstIter.next g) (DepthFirstIter.from_ 1) = .done (some 1, none) := by decide +kernel
/-- `dfs_iterator_return_reachable_nodes_in_a_depth_first_search_order` -/
example : Prog.collect (DepthFirstIter.next sample) (DepthFirstIter.from_ 1) 20 = .done [1, 5, 4, 6, 7, 2, 3] := by decide +kernel
/-- `dfs_iterator_does_not_loop_when_encountering_a_cycle` -/
example : (Prog.collect (DepthFirstIter.next ring) (DepthFirstIter.from_ 1) 20).bind (fun l => .done l.length) = .done 5 := by
  decide +kernel
/-- `dfs_path_iterator_return_path_for_all_reachable_nodes_in_a_depth_first_search_order` -/
example : Prog.collect (DepthFirstPathIter.next sample) (DepthFirstPathIter.from_ 1) 20 = .done
    [pathOf [1], pathOf [1, 5], pathOf [1, 4], pathOf [1, 4, 6], pathOf [1, 4, 6, 7], pathOf [1, 4, 6, 7, 2], pathOf [1, 4, 6, 7, 2, 5],
      pathOf [1, 4, 6, 7, 2, 3], pathOf [1, 4, 5], pathOf [1, 2], pathOf [1, 2, 5], pathOf [1, 2, 3]] := by decide +kernel

/-! core/src/iter/iter_breadth.rs -/

/-- `bfs_iterator_on_an_empty_graph_should_be_empty` -/
example : (nexts (BreadthFirstIter.next .new) (BreadthFirstIter.start .new)) = .done (none, none) := by decide +kernel
/-- `bfs_iterator_on_a_one_node_graph_should_return_one_node` -/
example : let g := (DirectedGraph.new.addVertex 1).2
    nexts (BreadthFirstIter.next g) (BreadthFirstIter.start g) = .done (some 1, none) := by decide +kernel
/-- `bfs_iterator_from_on_a_one_node_graph_should_return_the_only_node` -/
example : let g := (DirectedGraph.new.addVertex 1).2
    nexts (BreadthFirstIter.next g) (BreadthFirstIter.from_ 1) = .done (some 1, none) := by decide +kernel
/-- `bfs_iterator_return_reachable_nodes_in_a_breadth_first_search_order` -/
example : Prog.collect (BreadthFirstIter.next sample) (BreadthFirstIter.from_ 1) 20 = .done [1, 2, 4, 5, 3, 6, 7] := by decide +kernel
/-- `bfs_iterator_does_not_loop_when_encountering_a_cycle` -/
example : (Prog.collect (BreadthFirstIter.next ring) (BreadthFirstIter.from_ 1) 20).bind (fun l => .done l.length) = .done 5 := by
  decide +kernel
/-- `bfs_path_iterator_return_path_for_all_reachable_nodes_in_a_breadth_first_search_order` -/
example : Prog.collect (BreadthFirstPathIter.next sample) (BreadthFirstPathIter.from_ 1) 20 = .done
    [pathOf [1], pathOf [1, 2], pathOf [1, 4], pathOf [1, 5], pathOf [1, 2, 3], pathOf [1, 2, 5], pathOf [1, 4, 5], pathOf [1, 4, 6],
      pathOf [1, 4, 6, 7], pathOf [1, 4, 6, 7, 2], pathOf [1, 4, 6, 7, 2, 3], pathOf [1, 4, 6, 7, 2, 5]] := by decide +kernel

/-! core/src/iter/iter_best.rs -/

/-- The score of the tests: the id of the last vertex of the path (`as i64` changes nothing here). -/
def lastId : ScoreFn := fun _ path =>
  match path.last with
  | some v => .done v.id.toNat
  | none => .done 0

/-- `best_iter_from(..).collect()` with the heap of the standard library. -/
def bestFrom (g : DirectedGraph) (start : VertexId) (rounds : Nat) : Run (List ScoredPath) :=
  (BestFirstIter.from_ (H := StdHeap.scoredHeap) g lastId start).bind fun s => Prog.collect (BestFirstIter.next g lastId) s rounds

/-- `best_iterator_from_on_a_one_node_graph_should_return_a_one_node_path` -/
example : let g := (DirectedGraph.new.addVertex 1).2
    (BestFirstIter.from_ (H := StdHeap.scoredHeap) g lastId 1).bind (nexts (BestFirstIter.next g lastId)) =
      .done (some ⟨pathOf [1], 1⟩, none) := by decide +kernel
/-- `best_iterator_return_reachable_nodes_in_a_best_first_search_order` -/
example : bestFrom sample 1 20 = .done [⟨pathOf [1], 1⟩, ⟨pathOf [1, 2], 2⟩, ⟨pathOf [1, 2, 3], 3⟩, ⟨pathOf [1, 4], 4⟩, ⟨pathOf [1, 5], 5⟩,
    ⟨pathOf [1, 4, 6], 6⟩, ⟨pathOf [1, 4, 6, 7], 7⟩] := by decide +kernel
/-- `best_iterator_does_not_loop_when_encountering_a_cycle` -/
example : (bestFrom ring 1 20).bind (fun l => .done l.length) = .done 5 := by decide +kernel

end GC.Tests
