/-
Property C128: how much the iterators keep in memory.
-/
import Verif.Proofs.Memory
import Verif.Props.Work
namespace GC
open DirectedGraph Work Memory

/-- C128: the iterators over vertices never keep more vertices, waiting or visited, than the graph has (one if the graph is empty). -/
theorem C128_vertices (g : DirectedGraph) (h : Built g) (start : VertexId) :
    (∀ t, Passes (once (DepthFirstIter.next g)) (DepthFirstIter.from_ start) t →
      t.stack.stack.length ≤ max 1 g.vertexCount ∧ t.visited.length ≤ max 1 g.vertexCount) ∧
    ∀ t, Passes (once (BreadthFirstIter.next g)) (BreadthFirstIter.from_ start) t →
      t.queue.queue.length ≤ max 1 g.vertexCount ∧ t.visited.length ≤ max 1 g.vertexCount :=
  ⟨fun _ ht => have ⟨_, hi⟩ := dfs_small h.wf ht; search_small h.wf hi, fun _ ht => have ⟨_, hi⟩ := bfs_small h.wf ht; search_small h.wf hi⟩

/-- A state of the breadth-first iterator over the vertices of a diamond that waits with two vertices. -/
theorem exMemory_vertices : Passes (once (BreadthFirstIter.next (graphOf [.AddEdge 1 2, .AddEdge 2 4, .AddEdge 1 3, .AddEdge 3 4])))
    (BreadthFirstIter.from_ 1) ⟨⟨[2, 3]⟩, [3, 2, 1]⟩ :=
  .item (x := 1) .start ⟨0, fun _ _ => rfl⟩

/-- `C128_vertices` for this state. -/
example := (C128_vertices _ (graphOf_built _) 1).2 _ exMemory_vertices

/-- C128: nor does the best-first iterator keep more paths, whatever the closure it scores them with. -/
theorem C128_best {H : ScoredHeap} (g : DirectedGraph) (h : Built g) (scorefn : ScoreFn) (start : VertexId) (s t : BestFirstIter H)
    (hs : BestFirstIter.from_ (H := H) g scorefn start = .done s) (ht : Passes (once (BestFirstIter.next g scorefn)) s t) :
    t.queue.items.length ≤ max 1 g.vertexCount ∧ t.visited.length ≤ max 1 g.vertexCount :=
  have ⟨_, hi⟩ := best_small h.wf hs ht; search_small h.wf hi

/-- `C128_best` at the beginning, and after one path with two extensions. -/
example : ∃ s t : BestFirstIter exHeap,
    BestFirstIter.from_ (graphOf [.AddEdge 1 2, .AddEdge 2 4, .AddEdge 1 3, .AddEdge 3 4]) (fun _ p => .done (p.vertices.length : Int)) 1 = .done s ∧
    Passes (once (BestFirstIter.next (graphOf [.AddEdge 1 2, .AddEdge 2 4, .AddEdge 1 3, .AddEdge 3 4]) (fun _ p => .done (p.vertices.length : Int)))) s t ∧
    t.queue.items.length = 2 ∧ t.visited = [3, 2, 1] :=
  ⟨_, _, rfl, .item .start ⟨0, fun _ _ => rfl⟩, by decide +kernel, by decide +kernel⟩

/-- C128: the depth-first iterator over paths never keeps more paths than one for each edge, and one more. No path has more vertices than the
graph. -/
theorem C128_paths (g : DirectedGraph) (h : Built g) (start : VertexId) (t : DepthFirstPathIter)
    (ht : Passes (once (DepthFirstPathIter.next g)) (DepthFirstPathIter.from_ start) t) :
    t.stack.stack.length ≤ g.edges.length + 1 ∧ ∀ q ∈ t.stack.stack, q.vertices.length ≤ max 1 g.vertexCount :=
  (passes_once ht (fun t => PathsOk g start t.stack.stack) (.init start) fun _ _ _ hs hn => hs.next h.wf hn).small h.wf

/-- `C128_paths` for a state with two paths, on a diamond. -/
theorem exMemory_paths : Passes (once (DepthFirstPathIter.next (graphOf [.AddEdge 1 2, .AddEdge 2 4, .AddEdge 1 3, .AddEdge 3 4])))
    (DepthFirstPathIter.from_ 1) ⟨⟨[⟨[1, 2]⟩, ⟨[1, 3, 4]⟩]⟩⟩ :=
  .item (x := ⟨[1, 3]⟩) (.item (t' := ⟨⟨[⟨[1, 2]⟩, ⟨[1, 3]⟩]⟩⟩) (x := ⟨[1]⟩) .start ⟨0, fun _ _ => rfl⟩) ⟨0, fun _ _ => rfl⟩

example := C128_paths _ (graphOf_built _) 1 _ exMemory_paths

/-- C128: the search for Hamiltonian paths looks at the paths from one vertex at a time, and so keeps as few. -/
theorem C128_hamiltonian (g : DirectedGraph) (h : Built g) (t : List VertexId × Option DepthFirstPathIter)
    (ht : Passes (Prog.flatMapStep DepthFirstPathIter.from_ (DepthFirstPathIter.next g)) (Hamiltonian.iter g) t) (it : DepthFirstPathIter)
    (hit : t.2 = some it) : it.stack.stack.length ≤ g.edges.length + 1 ∧ ∀ q ∈ it.stack.stack, q.vertices.length ≤ max 1 g.vertexCount :=
  have ⟨_, hp⟩ := hamiltonian_small h.wf ht it hit; hp.small h.wf

/-- `C128_hamiltonian` for the state after the first path. -/
example := C128_hamiltonian (graphOf [.AddEdge 1 2, .AddEdge 1 3]) (graphOf_built _) ([2, 3], some ⟨⟨[⟨[1, 2]⟩, ⟨[1, 3]⟩]⟩⟩)
  (.item (x := ⟨[1]⟩) (.round (t' := ([2, 3], some (DepthFirstPathIter.from_ 1))) .start ⟨0, fun _ _ => rfl⟩) ⟨0, fun _ _ => rfl⟩) _ rfl

/-- C128: the iterator over cycles never keeps more walks to follow than the graph has vertices and edges, also while `next` is running. No
walk has more vertices than the graph, and one. (Besides, the iterator remembers the cycles it has returned.) -/
theorem C128_cycles (g : DirectedGraph) (h : Built g) (t : CycleIter) (ht : Passes (CycleIter.step g) (CycleIter.cycleIter g) t) :
    t.stack.stack.length ≤ g.vertexCount + g.edges.length ∧ ∀ q ∈ t.stack.stack, q.vertices.length ≤ g.vertexCount + 1 := by
  rw [vertexCount_eq]
  exact cycles_small h.wf ht

/-- `C128_cycles` for a state of the search, on a cycle with a chord. -/
example := C128_cycles (graphOf [.AddEdge 1 2, .AddEdge 2 1, .AddEdge 1 3, .AddEdge 3 1]) (graphOf_built _) ⟨⟨[⟨[1, 2]⟩, ⟨[1, 3]⟩]⟩, []⟩
  (.round .start ⟨0, fun _ _ => rfl⟩)

/-- C128: the breadth-first iterator over paths is different: on a chain of `n` diamonds, which has `3 * n + 1` vertices and `4 * n` edges, it
comes to keep `2 ^ n` paths at once. -/
theorem C128_breadth_first (n : Nat) (hn : n < 2 ^ 60) (g : DirectedGraph) (h : Built g) (hd : Diamonds n g) :
    ∃ t, Passes (once (BreadthFirstPathIter.next g)) (BreadthFirstPathIter.from_ (vertex 1)) t ∧ 2 ^ n ≤ t.queue.queue.length :=
  bfs_paths_hold hd h.wf hn

/-- There are such graphs. -/
example : ∃ g, Built g ∧ Diamonds 40 g ∧ g.vertexCount = 121 ∧
    ∃ t, Passes (once (BreadthFirstPathIter.next g)) (BreadthFirstPathIter.from_ (vertex 1)) t ∧ 2 ^ 40 ≤ t.queue.queue.length := by
  obtain ⟨g, h1, h2, h3⟩ := C120_diamonds 40 (by omega)
  exact ⟨g, h1, h2, h3, C128_breadth_first 40 (by omega) g h1 h2⟩

end GC
