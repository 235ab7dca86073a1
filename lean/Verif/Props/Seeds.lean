/-
Properties C82-C83: answers for one and the same graph, whatever the iteration order of the hash map and the history of the graph.
-/
import Verif.Props.ShortestPath
import Verif.Props.Cycle
import Verif.Props.MaxFlow
namespace GC
open DirectedGraph TopoSort ShortestPath LongestPath MaxFlow

theorem SameGraph.adj {g g' : DirectedGraph} (h : SameGraph g g') : Adj g = Adj g' := by
  funext u v
  unfold Adj
  rw [h.2]

theorem SameGraph.reach {g g' : DirectedGraph} (h : SameGraph g g') : Reach g = Reach g' := by
  funext u v
  unfold Reach
  rw [h.adj]

theorem SameGraph.symm {g g' : DirectedGraph} (h : SameGraph g g') : SameGraph g' g :=
  ⟨fun v => (h.1 v).symm, fun e => (h.2 e).symm⟩

theorem SameGraph.walk {g g' : DirectedGraph} (h : SameGraph g g') : WalkFromTo g = WalkFromTo g' := by
  funext u v l
  unfold WalkFromTo
  rw [h.adj]

theorem SameGraph.simplePath {g g' : DirectedGraph} (h : SameGraph g g') : SimplePathFrom g = SimplePathFrom g' := by
  funext u l
  unfold SimplePathFrom
  rw [h.adj]

theorem SameGraph.hamiltonianPath {g g' : DirectedGraph} (h : SameGraph g g') : HamiltonianPath g = HamiltonianPath g' := by
  funext l
  unfold HamiltonianPath
  rw [h.adj, show g.containsVertex = g'.containsVertex from funext h.1]

theorem SameGraph.isCycle {g g' : DirectedGraph} (h : SameGraph g g') : IsCycle g = IsCycle g' := by
  funext l
  unfold IsCycle
  rw [h.adj]

theorem SameGraph.hamiltonianCycle {g g' : DirectedGraph} (h : SameGraph g g') : HamiltonianCycle g = HamiltonianCycle g' := by
  funext l
  unfold HamiltonianCycle
  rw [h.isCycle, show g.containsVertex = g'.containsVertex from funext h.1]

theorem SameGraph.negativeCycle {g g' : DirectedGraph} (h : SameGraph g g') : NegativeCycle g = NegativeCycle g' := by
  funext w s
  unfold NegativeCycle
  rw [h.reach, h.walk]

theorem SameGraph.vertices_perm {g g' : DirectedGraph} (h : SameGraph g g') (hg : Built g) (hg' : Built g') : g.vertices.Perm g'.vertices :=
  (List.perm_ext_iff_of_nodup hg.wf.nodup_vertices hg'.wf.nodup_vertices).2 fun v => by rw [mem_vertices, mem_vertices, h.1]

theorem SameGraph.edges_perm {g g' : DirectedGraph} (h : SameGraph g g') (hg : Built g) (hg' : Built g') : g.edges.Perm g'.edges :=
  (List.perm_ext_iff_of_nodup hg.wf.nodup_edges hg'.wf.nodup_edges).2 fun v => by rw [hg.wf.mem_edges, hg'.wf.mem_edges, h.2]

theorem SameGraph.vertexCount {g g' : DirectedGraph} (h : SameGraph g g') (hg : Built g) (hg' : Built g') : g.vertexCount = g'.vertexCount := by
  have := (h.vertices_perm hg hg').length_eq
  simpa [vertices, HMap.keys, DirectedGraph.vertexCount] using this

theorem SameGraph.smallWeights {g g' : DirectedGraph} (h : SameGraph g g') (hg : Built g) (hg' : Built g') {w : Edge → Int}
    (hw : SmallWeights g w) : SmallWeights g' w := by
  intro e he
  rw [← h.vertexCount hg hg']
  exact hw e (by rw [h.2]; exact he)

theorem sameGraph_of_lists {g g' : DirectedGraph} (h : Built g) (h' : Built g') (hv : g.vertices ⊆ g'.vertices ∧ g'.vertices ⊆ g.vertices)
    (he : g.edges ⊆ g'.edges ∧ g'.edges ⊆ g.edges) : SameGraph g g' := by
  constructor
  · intro v
    rw [Bool.eq_iff_iff, ← mem_vertices, ← mem_vertices]
    exact ⟨@hv.1 v, @hv.2 v⟩
  · intro e
    rw [Bool.eq_iff_iff, ← h.wf.mem_edges, ← h'.wf.mem_edges]
    exact ⟨@he.1 e, @he.2 e⟩

/-- Example network: 1→2→4→6, 1→3→5→6, 2→5, with the last commands in a given order. -/
def exDiamond (order : List GraphCommand) : DirectedGraph :=
  GraphCommand.applyCommands ([.AddEdge 1 2, .AddEdge 1 3, .AddEdge 4 6, .AddEdge 3 5, .AddEdge 5 6] ++ order) .new

/-- Two histories of the same graph: the edges 2→4 and 2→5 are added in another order. -/
theorem exDiamond_same : SameGraph (exDiamond [.AddEdge 2 4, .AddEdge 2 5]) (exDiamond [.AddEdge 2 5, .AddEdge 2 4]) :=
  sameGraph_of_lists (Built.new.applyCommands _) (Built.new.applyCommands _) (by decide) (by decide)

/-! ### C82: answers that depend on the graph only -/

/-- C82: the listings of the same graph differ only in their order, and the counts and degrees are the same. -/
theorem C82_queries (g g' : DirectedGraph) (h : Built g) (h' : Built g') (hs : SameGraph g g') (v : VertexId) :
    g.vertices.Perm g'.vertices ∧ g.edges.Perm g'.edges ∧ (g.outboundEdges v).Perm (g'.outboundEdges v) ∧
    (g.inboundEdges v).Perm (g'.inboundEdges v) ∧ g.vertexCount = g'.vertexCount ∧ g.edgeCount = g'.edgeCount ∧
    g.isEmpty = g'.isEmpty ∧ g.degreeOut v = g'.degreeOut v ∧ g.degreeIn v = g'.degreeIn v := by
  have e1 := hs.vertices_perm h h'
  have e2 := hs.edges_perm h h'
  have e3 : (g.outboundEdges v).Perm (g'.outboundEdges v) :=
    (List.perm_ext_iff_of_nodup (h.wf.nodup_outbound v) (h'.wf.nodup_outbound v)).2 fun e => by
      rw [h.wf.mem_outbound, h'.wf.mem_outbound, hs.2]
  have e4 : (g.inboundEdges v).Perm (g'.inboundEdges v) :=
    (List.perm_ext_iff_of_nodup (h.wf.nodup_inbound v) (h'.wf.nodup_inbound v)).2 fun e => by
      rw [h.wf.mem_inbound, h'.wf.mem_inbound, hs.2]
  refine ⟨e1, e2, e3, e4, hs.vertexCount h h', ?_, ?_, e3.length_eq, e4.length_eq⟩
  · rw [C04_edge_count_formula g h, C04_edge_count_formula g' h', (e2.filter _).length_eq, (e2.filter fun e => decide (e.src = e.dst)).length_eq]
  · unfold isEmpty
    rw [hs.vertexCount h h']

/-- C82: the traversals of the same graph from the same vertex visit the same vertices, and the path iterators yield the same paths. -/
theorem C82_iterators (g g' : DirectedGraph) (h : Built g) (h' : Built g') (hs : SameGraph g g') (s : VertexId) :
    (∃ out out', Returns (Prog.collect (DepthFirstIter.next g) (DepthFirstIter.from_ s)) out ∧
      Returns (Prog.collect (DepthFirstIter.next g') (DepthFirstIter.from_ s)) out' ∧ out.Perm out') ∧
    (∃ out out', Returns (Prog.collect (BreadthFirstIter.next g) (BreadthFirstIter.from_ s)) out ∧
      Returns (Prog.collect (BreadthFirstIter.next g') (BreadthFirstIter.from_ s)) out' ∧ out.Perm out') ∧
    (∃ out out', Returns (Prog.collect (DepthFirstPathIter.next g) (DepthFirstPathIter.from_ s)) out ∧
      Returns (Prog.collect (DepthFirstPathIter.next g') (DepthFirstPathIter.from_ s)) out' ∧ out.Perm out') ∧
    ∃ out out', Returns (Prog.collect (BreadthFirstPathIter.next g) (BreadthFirstPathIter.from_ s)) out ∧
      Returns (Prog.collect (BreadthFirstPathIter.next g') (BreadthFirstPathIter.from_ s)) out' ∧ out.Perm out' := by
  refine ⟨?_, ?_, ?_, ?_⟩
  · obtain ⟨o, h1, h2, _, h3⟩ := C24_dfs_exact g h s
    obtain ⟨o', h1', h2', _, h3'⟩ := C24_dfs_exact g' h' s
    exact ⟨o, o', h1, h1', (List.perm_ext_iff_of_nodup h2 h2').2 fun v => by rw [h3, h3', hs.reach]⟩
  · obtain ⟨o, h1, h2, h3, _⟩ := C25_bfs_exact g h s
    obtain ⟨o', h1', h2', h3', _⟩ := C25_bfs_exact g' h' s
    exact ⟨o, o', h1, h1', (List.perm_ext_iff_of_nodup h2 h2').2 fun v => by rw [h3, h3', hs.reach]⟩
  · obtain ⟨o, h1, h2, h3⟩ := C27_dfs_paths g h s
    obtain ⟨o', h1', h2', h3'⟩ := C27_dfs_paths g' h' s
    exact ⟨o, o', h1, h1', (List.perm_ext_iff_of_nodup h2 h2').2 fun v => by rw [h3, h3', hs.simplePath]⟩
  · obtain ⟨o, h1, h2, h3, _⟩ := C28_bfs_paths g h s
    obtain ⟨o', h1', h2', h3', _⟩ := C28_bfs_paths g' h' s
    exact ⟨o, o', h1, h1', (List.perm_ext_iff_of_nodup h2 h2').2 fun v => by rw [h3, h3', hs.simplePath]⟩

/-- C82: gc-short-path finds a path of the same score, or none, for every implementation of the heap. -/
theorem C82_short_path (H H' : ScoredHeap) (g g' : DirectedGraph) (h : Built g) (h' : Built g') (hs : SameGraph g g')
    (hsize : g.vertexCount < 2 ^ 63) (start end_ : VertexId) :
    ∃ r r', Returns (AStar.gcShortPath H g start end_) r ∧ Returns (AStar.gcShortPath H' g' start end_) r' ∧
      r.map ScoredPath.score = r'.map ScoredPath.score := by
  obtain ⟨r, h1, h2, h3⟩ := C33_short_path_optimal H g h hsize start end_
  obtain ⟨r', h1', h2', h3'⟩ := C33_short_path_optimal H' g' h' (by rwa [← hs.vertexCount h h']) start end_
  refine ⟨r, r', h1, h1', ?_⟩
  rw [← hs.reach, ← h2] at h2'
  rw [← hs.walk] at h3'
  cases r with
  | none => rw [h2'.2 rfl]
  | some sp =>
    cases r' with
    | none => cases h2'.1 rfl
    | some sp' =>
      obtain ⟨a1, _, a3, a4⟩ := h3 sp rfl
      obtain ⟨b1, _, b3, b4⟩ := h3' sp' rfl
      have := a4 _ b1
      have := b4 _ a1
      simp only [Option.map_some, Option.some.injEq]
      omega

/-- C82: gc-csp says that no path exists for one order exactly if it does for the other, and two paths it finds have the same score. -/
theorem C82_csp (H H' : ScoredHeap) (g g' : DirectedGraph) (h : Built g) (h' : Built g') (hs : SameGraph g g')
    (start end_ : VertexId) (cs : List Constraint) :
    (Returns (AStar.gcCsp H g start end_ cs) none ↔ Returns (AStar.gcCsp H' g' start end_ cs) none) ∧
    ∀ sp sp', Returns (AStar.gcCsp H g start end_ cs) (some sp) → Returns (AStar.gcCsp H' g' start end_ cs) (some sp') →
      sp.score = sp'.score := by
  constructor
  · rw [C37_not_reachable_iff H g h, C37_not_reachable_iff H' g' h', hs.walk, hs.adj]
    have hu : ∀ sp, Unpruned g (AStar.sumScore AStar.oneWeightedEdge AStar.zeroHeuristic) cs start sp ↔
        Unpruned g' (AStar.sumScore AStar.oneWeightedEdge AStar.zeroHeuristic) cs start sp := by
      intro sp
      unfold Unpruned
      rw [show AStar.sumScore AStar.oneWeightedEdge AStar.zeroHeuristic g = AStar.sumScore AStar.oneWeightedEdge AStar.zeroHeuristic g' from rfl]
      unfold WalkFrom
      rw [hs.adj]
    simp only [hu]
  · intro sp sp' h1 h2
    have one : ∀ (H H' : ScoredHeap) (g g' : DirectedGraph), Built g → Built g' → SameGraph g g' → ∀ sp sp',
        Returns (AStar.gcCsp H g start end_ cs) (some sp) → Returns (AStar.gcCsp H' g' start end_ cs) (some sp') → sp.score ≤ sp'.score := by
      intro H H' g g' h h' hs sp sp' h1 h2
      obtain ⟨a1, a2, a, b, ha, hb, hab⟩ := C35_constrained_valid H' g' h' _ _ start end_ cs sp' h2
      rw [← hs.walk] at a1
      have hsc : AStar.sumScore AStar.oneWeightedEdge AStar.zeroHeuristic g sp'.path = .done sp'.score := by
        have hne : sp'.path.vertices ≠ [] := by intro e; rw [e] at a1; cases a1.2.1
        rw [unit_score g _ hne]
        rw [oneWeightedEdge_eq g' _ hne] at ha
        split at ha
        · rename_i hle
          cases ha
          cases hb
          rw [if_pos hle, hab]
          simp
        · cases ha
      obtain ⟨x, hx, hle⟩ := C36_constrained_optimal H g h _ _ start end_ cs (monotone_unit g start) _ h1 sp' a1 hsc a2
      cases hx
      exact hle
    exact le_antisymm (one H H' g g' h h' hs sp sp' h1 h2) (one H' H g' g h' h hs.symm sp' sp h2 h1)

/-- C82: `topological_sort` finds an order, and `is_dag` answers yes, for one iteration order exactly if it does for the other. -/
theorem C82_topological_sort (g g' : DirectedGraph) (h : Built g) (h' : Built g') (hs : SameGraph g g') :
    ∃ r r', Returns (topologicalSort g) r ∧ Returns (topologicalSort g') r' ∧ r.isSome = r'.isSome ∧
      Returns (isDag g) r.isSome ∧ Returns (isDag g') r.isSome := by
  obtain ⟨r, h1, h2⟩ := C39_exact g h
  obtain ⟨r', h1', h2'⟩ := C39_exact g' h'
  have e : r.isSome = r'.isSome := by
    rw [Bool.eq_iff_iff, h2, h2']
    unfold Acyclic OnlyDeadEndLoop
    rw [hs.adj]
  obtain ⟨x, a1, a2, _⟩ := C39_is_dag_try_dag g h
  obtain ⟨x', b1, b2, _⟩ := C39_is_dag_try_dag g' h'
  cases a1.unique h1
  cases b1.unique h1'
  exact ⟨r, r', h1, h1', e, a2, e ▸ b2⟩

/-- Two maps from vertices to scored paths with the same keys and the same scores. -/
def SameScores (m m' : Scores) : Prop :=
  (m.map fun p => (p.1, p.2.score)).Perm (m'.map fun p => (p.1, p.2.score))

theorem lightest_sameScores {g g' : DirectedGraph} (hs : SameGraph g g') {w : Edge → Int} {s : VertexId} {m m' : Scores}
    (h : LightestWalks g w s m) (h' : LightestWalks g' w s m') : SameScores m m' := by
  have nd : ∀ m : Scores, (m.map Prod.fst).Nodup → (m.map fun p => (p.1, p.2.score)).Nodup := by
    intro m hm
    apply List.Nodup.of_map Prod.fst
    rw [List.map_map]
    exact hm
  have one : ∀ {g g' : DirectedGraph} {m m' : Scores}, SameGraph g g' → LightestWalks g w s m → LightestWalks g' w s m' →
      ∀ x, x ∈ (m.map fun p => (p.1, p.2.score)) → x ∈ m'.map fun p => (p.1, p.2.score) := by
    intro g g' m m' hs h h' x hx
    obtain ⟨⟨v, sp⟩, hp, rfl⟩ := List.mem_map.1 hx
    have hv : v ∈ m'.map Prod.fst := by
      rw [h'.2.1, ← hs.reach, ← h.2.1]
      exact List.mem_map.2 ⟨_, hp, rfl⟩
    obtain ⟨⟨v', sp'⟩, hp', e⟩ := List.mem_map.1 hv
    cases e
    obtain ⟨a1, a2, a3⟩ := h.2.2 _ _ hp
    obtain ⟨b1, b2, b3⟩ := h'.2.2 _ _ hp'
    have l1 := a3 _ (by rw [hs.walk]; exact b1)
    have l2 := b3 _ (by rw [← hs.walk]; exact a1)
    rw [← a2] at l2
    rw [← b2] at l1
    refine List.mem_map.2 ⟨_, hp', ?_⟩
    rw [le_antisymm l1 l2]
  exact (List.perm_ext_iff_of_nodup (nd _ h.1) (nd _ h'.1)).2 fun x => ⟨one hs h h' x, one hs.symm h' h x⟩

/-- C82: `bellman_ford` reports a negative cycle for one order exactly if it does for the other, and otherwise the same score for every
vertex; `spfa` returns for one order exactly if it does for the other, with the same scores. -/
theorem C82_bellman_ford_spfa (g g' : DirectedGraph) (h : Built g) (h' : Built g') (hs : SameGraph g g') (w : WeightFn)
    (hw : SmallWeights g w) (start : VertexId) :
    (∀ r r', bellmanFord g w start = .done r → bellmanFord g' w start = .done r' →
      (r = none ↔ r' = none) ∧ ∀ m m', r = some m → r' = some m' → SameScores m m') ∧
    ((∃ m, Returns (spfa g w start) m) ↔ ∃ m', Returns (spfa g' w start) m') ∧
    ∀ m m', Returns (spfa g w start) m → Returns (spfa g' w start) m' → SameScores m m' := by
  have hw' := hs.smallWeights h h' hw
  have e1 := C45_spfa_returns_iff g h w hw start
  have e2 := C45_spfa_returns_iff g' h' w hw' start
  refine ⟨fun r r' h1 h1' => ⟨?_, ?_⟩, ?_, fun m m' h1 h1' => lightest_sameScores hs (e1.2 m h1) (e2.2 m' h1')⟩
  · rw [C44_none_iff_negative_cycle g h w hw start r h1, C44_none_iff_negative_cycle g' h' w hw' start r' h1', hs.negativeCycle]
  · rintro m m' rfl rfl
    exact lightest_sameScores hs (C43_bellman_ford_exact g h w hw start m h1) (C43_bellman_ford_exact g' h' w hw' start m' h1')
  · rw [e1.1, e2.1, hs.negativeCycle]

/-- C82: the Hamiltonian paths found are the same, and a Hamiltonian cycle is found for one order exactly if it is for the other. -/
theorem C82_hamiltonian (g g' : DirectedGraph) (h : Built g) (h' : Built g') (hs : SameGraph g g') :
    (∃ ps ps', Returns (Prog.collect (Hamiltonian.next g) (Hamiltonian.iter g)) ps ∧
      Returns (Prog.collect (Hamiltonian.next g') (Hamiltonian.iter g')) ps' ∧ ps.Perm ps') ∧
    (∃ b, Returns (Hamiltonian.isHamiltonian g) b ∧ Returns (Hamiltonian.isHamiltonian g') b) ∧
    ∃ r r', Returns (CycleAlg.hamiltonian g) r ∧ Returns (CycleAlg.hamiltonian g') r' ∧ (r = none ↔ r' = none) := by
  refine ⟨?_, ?_, ?_⟩
  · obtain ⟨ps, h1, h2, h3⟩ := C47_hamiltonian_paths g h
    obtain ⟨ps', h1', h2', h3'⟩ := C47_hamiltonian_paths g' h'
    exact ⟨ps, ps', h1, h1', (List.perm_ext_iff_of_nodup h2 h2').2 fun p => by rw [h3, h3', hs.hamiltonianPath]⟩
  · obtain ⟨b, h1, h2⟩ := C47_is_hamiltonian g h
    obtain ⟨b', h1', h2'⟩ := C47_is_hamiltonian g' h'
    have : b = b' := by rw [Bool.eq_iff_iff, h2, h2', hs.hamiltonianPath]
    exact ⟨b, h1, this ▸ h1'⟩
  · obtain ⟨r, h1, _, h2⟩ := C51_hamiltonian_cycle g h
    obtain ⟨r', h1', _, h2'⟩ := C51_hamiltonian_cycle g' h'
    exact ⟨r, r', h1, h1', by rw [h2, h2', hs.hamiltonianCycle]⟩

/-- The hypotheses of C82 are met by two graphs whose representations differ; the listings and the traversals differ in their order. -/
example : Built (exDiamond [.AddEdge 2 4, .AddEdge 2 5]) ∧ Built (exDiamond [.AddEdge 2 5, .AddEdge 2 4]) ∧
    exDiamond [.AddEdge 2 4, .AddEdge 2 5] ≠ exDiamond [.AddEdge 2 5, .AddEdge 2 4] ∧
    SmallWeights (exDiamond [.AddEdge 2 4, .AddEdge 2 5]) (fun _ => 1) ∧
    Prog.collect (BreadthFirstIter.next (exDiamond [.AddEdge 2 4, .AddEdge 2 5])) (BreadthFirstIter.from_ 1) 20 = .done [1, 2, 3, 4, 5, 6] ∧
    Prog.collect (BreadthFirstIter.next (exDiamond [.AddEdge 2 5, .AddEdge 2 4])) (BreadthFirstIter.from_ 1) 20 = .done [1, 2, 3, 5, 4, 6] :=
  ⟨Built.new.applyCommands _, Built.new.applyCommands _, by decide, fun _ _ => show |(1 : Int)| * _ < _ by decide, by decide, by decide⟩
example : (exDiamond [.AddEdge 2 4, .AddEdge 2 5]).vertexCount < 2 ^ 63 := by decide

/-! ### C83: max_flow, cycles and paths in dags -/

theorem flow_value {g : DirectedGraph} {cap : Edge → UInt64} {s t : VertexId} {k n : Nat}
    (h : (maxFlow g cap s t k).bind (fun r => .done r.1) = .done n) : ∃ m, Returns (maxFlow g cap s t) (n, m) := by
  rcases e : maxFlow g cap s t k with _ | _ | ⟨n', m⟩
  · rw [e] at h; cases h
  · rw [e] at h; cases h
  · rw [e] at h; cases h
    exact ⟨m, (mono_maxFlow _ _ _ _).returns e⟩

/-- C83 is false for `max_flow`: with all capacities 1 the value reported from 1 to 6 is 2 or 1, depending on whether the edge 2→4 was
added before or after the edge 2→5. -/
theorem C83_counterexample_max_flow :
    ∃ g g', Built g ∧ Built g' ∧ SameGraph g g' ∧ (∃ m, Returns (maxFlow g (fun _ => 1) 1 6) (2, m)) ∧
      ∃ m, Returns (maxFlow g' (fun _ => 1) 1 6) (1, m) := by
  refine ⟨exDiamond [.AddEdge 2 4, .AddEdge 2 5], exDiamond [.AddEdge 2 5, .AddEdge 2 4], Built.new.applyCommands _,
    Built.new.applyCommands _, exDiamond_same, flow_value (k := 40) (by decide +kernel), flow_value (k := 40) (by decide +kernel)⟩

/-- C83 is false for the cycles of a graph: their number depends on the iteration order of the hash map. -/
theorem C83_counterexample_cycles :
    ∃ g g', Built g ∧ Built g' ∧ SameGraph g g' ∧ Returns (CycleAlg.count g) 2 ∧ Returns (CycleAlg.count g') 1 := by
  obtain ⟨g, g', h, h', hs, h1, h2⟩ := C49_counterexample_order
  obtain ⟨cs, a1, _, a2, _⟩ := C50_first_count_take g h
  obtain ⟨cs', b1, _, b2, _⟩ := C50_first_count_take g' h'
  cases a1.unique h1
  cases b1.unique h2
  exact ⟨g, g', h, h', hs, a2, b2⟩

/-- C83 is false for `dag_shortest_paths`: it panics for one iteration order of the hash map and returns for another. -/
theorem C83_counterexample_dag : ∃ g g', Built g ∧ Built g' ∧ SameGraph g g' ∧ Acyclic g ∧
    Panics (dagShortestPaths ⟨g⟩ (fun _ => 1) 1) ∧ ∃ scores, Returns (dagShortestPaths ⟨g'⟩ (fun _ => 1) 1) scores := by
  obtain ⟨g, g', h, h', hs, h1, _, h2, h3⟩ := C41_counterexample
  exact ⟨g, g', h, h', hs, h1, h2, h3⟩

theorem SameGraph.outFlow {g g' : DirectedGraph} (h : SameGraph g g') (hg : Built g) (hg' : Built g') : GC.outFlow g = GC.outFlow g' := by
  funext f v
  unfold GC.outFlow
  rw [List.toFinset_eq_of_perm _ _ (h.edges_perm hg hg')]

theorem SameGraph.inFlow {g g' : DirectedGraph} (h : SameGraph g g') (hg : Built g) (hg' : Built g') : GC.inFlow g = GC.inFlow g' := by
  funext f v
  unfold GC.inFlow
  rw [List.toFinset_eq_of_perm _ _ (h.edges_perm hg hg')]

theorem SameGraph.isMaxFlowValue {g g' : DirectedGraph} (h : SameGraph g g') (hg : Built g) (hg' : Built g') :
    IsMaxFlowValue g = IsMaxFlowValue g' := by
  funext cap s t n
  unfold IsMaxFlowValue Feasible netOut
  rw [h.outFlow hg hg', h.inFlow hg hg']
  simp only [h.1, h.2]

theorem maxFlowValue_unique {g : DirectedGraph} {cap : Edge → UInt64} {s t : VertexId} {n n' : Nat} (h : IsMaxFlowValue g cap s t n)
    (h' : IsMaxFlowValue g cap s t n') : n = n' := by
  obtain ⟨⟨f, h1, h2⟩, h3⟩ := h
  obtain ⟨⟨f', h1', h2'⟩, h3'⟩ := h'
  have := h3 f' h1'
  have := h3' f h1
  omega

/-- C83 (partial), `max_flow`: the reported value depends on the graph only if every vertex other than the ends has at most one incoming
edge, or every such vertex has at most one outgoing edge; and on every graph, whether it is 0 depends on the graph only.
Missing: other graphs (`C83_counterexample_max_flow`). -/
theorem C83_max_flow_partial (g g' : DirectedGraph) (h : Built g) (h' : Built g') (hs : SameGraph g g') (cap : Edge → UInt64)
    (s t : VertexId) (hst : s ≠ t) (n n' : Nat) (m m' : FlowMap) (hr : Returns (maxFlow g cap s t) (n, m))
    (hr' : Returns (maxFlow g' cap s t) (n', m')) :
    (n = 0 ↔ n' = 0) ∧
    ((∀ u u' v, v ≠ s → v ≠ t → Adj g u v → Adj g u' v → u = u') ∨ (∀ u v v', u ≠ s → u ≠ t → Adj g u v → Adj g u v' → v = v') →
      n = n') := by
  constructor
  · rw [C55_zero_partial g h cap s t hst n m hr, C55_zero_partial g' h' cap s t hst n' m' hr', hs.isMaxFlowValue h h']
  · rintro (hin | hout)
    · have h1 := C55_single_entry_partial g h cap s t hst hin n m hr
      have h2 := C55_single_entry_partial g' h' cap s t hst (by rwa [← hs.adj]) n' m' hr'
      rw [← hs.isMaxFlowValue h h'] at h2
      exact maxFlowValue_unique h1 h2
    · have h1 := C55_single_exit_partial g h cap s t hst hout n m hr
      have h2 := C55_single_exit_partial g' h' cap s t hst (by rwa [← hs.adj]) n' m' hr'
      rw [← hs.isMaxFlowValue h h'] at h2
      exact maxFlowValue_unique h1 h2

/-- C83 (partial), cycles: the same cycles are listed if the graph has a vertex without incoming edge, or if it is strongly connected.
Missing: other graphs (`C83_counterexample_cycles`). -/
theorem C83_cycles_partial (g g' : DirectedGraph) (h : Built g) (h' : Built g') (hs : SameGraph g g')
    (hc : (∃ r, IsRoot g r) ∨ StronglyConnected g) :
    ∃ cs cs', Returns (CycleAlg.takeAll g) cs ∧ Returns (CycleAlg.takeAll g') cs' ∧ cs.Perm cs' := by
  have one : ∀ g g' : DirectedGraph, Built g → Built g' → SameGraph g g' → (∃ r, IsRoot g r) ∨ StronglyConnected g → ∀ cs cs',
      Returns (CycleAlg.takeAll g) cs → Returns (CycleAlg.takeAll g') cs' → ∀ c ∈ cs, c ∈ cs' := by
    intro g g' h h' hs hc cs cs' h1 h2 c hcm
    obtain ⟨x, a1, _, a3, a4⟩ := C48_cycle_iter_sound g h
    cases a1.unique h1
    obtain ⟨x', b1, _, b3, b4⟩ := C48_cycle_iter_sound g' h'
    cases b1.unique h2
    obtain ⟨hcy, hsm⟩ := a3 c hcm
    have hd : ∃ d ∈ cs', d.vertices ~r c.vertices := by
      rcases hc with ⟨r, hr⟩ | hsc
      · obtain ⟨y, c1, c2⟩ := C49_exact g h
        cases c1.unique h1
        obtain ⟨y', d1, d2⟩ := C49_exact g' h'
        cases d1.unique h2
        obtain ⟨s, v, e1, e2, e3⟩ := (c2 _ hcy).1 ⟨c, hcm, List.IsRotated.refl _⟩
        rcases e1 with e1 | e1
        · refine (d2 _ (by rw [← hs.isCycle]; exact hcy)).2 ⟨s, v, .inl ?_, e2, by rw [← hs.reach]; exact e3⟩
          unfold IsRoot at *
          rw [← hs.adj, ← hs.1]
          exact e1
        · exact absurd hr (e1.1 r)
      · obtain ⟨y', d1, d2⟩ := C49_complete_partial g' h' (.inr (by
          unfold StronglyConnected at *
          rw [← hs.reach]
          simpa only [hs.1] using hsc))
        cases d1.unique h2
        exact d2 _ (by rw [← hs.isCycle]; exact hcy)
    obtain ⟨d, hdm, hrot⟩ := hd
    have : d.vertices = c.vertices := canonical_unique (b3 d hdm).1.2.1 hrot (b3 d hdm).2 hsm
    have : d = c := by cases d; cases c; simp_all
    exact this ▸ hdm
  obtain ⟨cs, h1, h2, _⟩ := C48_cycle_iter_sound g h
  obtain ⟨cs', h1', h2', _⟩ := C48_cycle_iter_sound g' h'
  have hc' : (∃ r, IsRoot g' r) ∨ StronglyConnected g' := by
    unfold IsRoot StronglyConnected at *
    rw [← hs.adj, ← hs.reach]
    simpa only [hs.1] using hc
  exact ⟨cs, cs', h1, h1', (List.perm_ext_iff_of_nodup h2 h2').2 fun c => ⟨one g g' h h' hs hc cs cs' h1 h1' c,
    one g' g h' h hs.symm hc' cs' cs h1' h1 c⟩⟩

/-- A graph of C83 (partial) with a vertex without incoming edge and a cycle. -/
example : IsRoot (GraphCommand.applyCommands [.AddEdge 1 2, .AddEdge 2 3, .AddEdge 3 2, .AddEdge 3 3] .new) 1 := by
  refine ⟨by decide, fun u hu => ?_⟩
  have h1 := (Built.new.applyCommands _).wf.mem_edges.2 hu
  have : ∀ e ∈ (GraphCommand.applyCommands [.AddEdge 1 2, .AddEdge 2 3, .AddEdge 3 2, .AddEdge 3 3] .new).edges, e.dst ≠ 1 := by decide
  exact this _ h1 rfl
/-- A network of C83 (partial) in which the inner vertices have one incoming edge: 1→2→4, 1→3→4. -/
example : ∀ u u' v, v ≠ 1 → v ≠ 4 → Adj (GraphCommand.applyCommands [.AddEdge 1 2, .AddEdge 2 4, .AddEdge 1 3, .AddEdge 3 4] .new) u v →
    Adj (GraphCommand.applyCommands [.AddEdge 1 2, .AddEdge 2 4, .AddEdge 1 3, .AddEdge 3 4] .new) u' v → u = u' := by
  intro u u' v h1 h4 hu hu'
  have k1 := (Built.new.applyCommands _).wf.mem_edges.2 hu
  have k2 := (Built.new.applyCommands _).wf.mem_edges.2 hu'
  have : ∀ e ∈ (GraphCommand.applyCommands [.AddEdge 1 2, .AddEdge 2 4, .AddEdge 1 3, .AddEdge 3 4] .new).edges,
      ∀ e' ∈ (GraphCommand.applyCommands [.AddEdge 1 2, .AddEdge 2 4, .AddEdge 1 3, .AddEdge 3 4] .new).edges,
      e.dst ≠ 1 → e.dst ≠ 4 → e.dst = e'.dst → e.src = e'.src := by decide
  exact this _ k1 _ k2 h1 h4 rfl
example : (maxFlow (GraphCommand.applyCommands [.AddEdge 1 2, .AddEdge 2 4, .AddEdge 1 3, .AddEdge 3 4] .new) (fun _ => 3) 1 4 30).bind
    (fun r => .done r.1) = .done 6 := by decide

/-- C83 (partial), dags: two maps returned by `dag_shortest_paths` for the same acyclic graph have the same keys and scores.
Missing: it may return for one iteration order only (`C83_counterexample_dag`). -/
theorem C83_dag_partial (g g' : DirectedGraph) (h : Built g) (h' : Built g') (hs : SameGraph g g') (ha : Acyclic g) (w : WeightFn)
    (start : VertexId) (m m' : Scores) (hr : Returns (dagShortestPaths ⟨g⟩ w start) m) (hr' : Returns (dagShortestPaths ⟨g'⟩ w start) m') :
    SameScores m m' :=
  lightest_sameScores hs (C40_dag_shortest_paths g h ha w start m hr)
    (C40_dag_shortest_paths g' h' (by unfold Acyclic at *; rwa [← hs.adj]) w start m' hr')

/-! ### Worked cases -/

/-- The two graphs of `exDiamond_same` in `C82_queries`, `C82_iterators`, `C82_short_path`, `C82_csp`, `C82_topological_sort` and
`C82_hamiltonian`. -/
example (H H' : ScoredHeap) := And.intro
  (C82_queries _ _ (Built.new.applyCommands _) (Built.new.applyCommands _) exDiamond_same 2)
  (And.intro (C82_iterators _ _ (Built.new.applyCommands _) (Built.new.applyCommands _) exDiamond_same 1)
    (And.intro (C82_short_path H H' _ _ (Built.new.applyCommands _) (Built.new.applyCommands _) exDiamond_same (by decide) 1 6)
      (And.intro (C82_csp H H' _ _ (Built.new.applyCommands _) (Built.new.applyCommands _) exDiamond_same 1 6 [.ContainsVertex 4])
        (And.intro (C82_topological_sort _ _ (Built.new.applyCommands _) (Built.new.applyCommands _) exDiamond_same)
          (C82_hamiltonian _ _ (Built.new.applyCommands _) (Built.new.applyCommands _) exDiamond_same)))))

/-- The same graphs in `C82_bellman_ford_spfa`, each edge of weight 1. -/
example := C82_bellman_ford_spfa _ _ (Built.new.applyCommands _) (Built.new.applyCommands _) exDiamond_same (fun _ => 1)
  (fun _ _ => show |(1 : Int)| * _ < _ by decide) 1

/-- The network 1→2→4, 1→3→4, written in two orders, in `C83_max_flow_partial`: both calls return 6. -/
example : ∃ m m', Returns (maxFlow (graphOf [.AddEdge 1 2, .AddEdge 2 4, .AddEdge 1 3, .AddEdge 3 4]) (fun _ => 3) 1 4) (6, m) ∧
    Returns (maxFlow (graphOf [.AddEdge 3 4, .AddEdge 1 3, .AddEdge 2 4, .AddEdge 1 2]) (fun _ => 3) 1 4) (6, m') := by
  have hs : SameGraph (graphOf [.AddEdge 1 2, .AddEdge 2 4, .AddEdge 1 3, .AddEdge 3 4])
      (graphOf [.AddEdge 3 4, .AddEdge 1 3, .AddEdge 2 4, .AddEdge 1 2]) :=
    sameGraph_of_lists (graphOf_built _) (graphOf_built _) (by decide) (by decide)
  obtain ⟨m, h⟩ := flow_value (g := graphOf [.AddEdge 1 2, .AddEdge 2 4, .AddEdge 1 3, .AddEdge 3 4]) (cap := fun _ => 3) (s := 1) (t := 4)
    (k := 30) (n := 6) (by decide)
  obtain ⟨m', h'⟩ := flow_value (g := graphOf [.AddEdge 3 4, .AddEdge 1 3, .AddEdge 2 4, .AddEdge 1 2]) (cap := fun _ => 3) (s := 1) (t := 4)
    (k := 30) (n := 6) (by decide)
  have := C83_max_flow_partial _ _ (graphOf_built _) (graphOf_built _) hs _ 1 4 (by decide) 6 6 m m' h h'
  exact ⟨m, m', h, h'⟩

/-- A cycle written in two orders in `C83_cycles_partial`. -/
example : ∃ cs cs', Returns (CycleAlg.takeAll (graphOf [.AddEdge 0 1, .AddEdge 1 2, .AddEdge 2 1])) cs ∧
    Returns (CycleAlg.takeAll (graphOf [.AddEdge 2 1, .AddEdge 1 2, .AddEdge 0 1])) cs' ∧ cs.Perm cs' :=
  C83_cycles_partial _ _ (graphOf_built _) (graphOf_built _)
    (sameGraph_of_lists (graphOf_built _) (graphOf_built _) (by decide) (by decide))
    (.inl ⟨0, by decide, fun u hu => by
      have : ∀ e ∈ (graphOf [.AddEdge 0 1, .AddEdge 1 2, .AddEdge 2 1]).edges, e.dst ≠ 0 := by decide
      exact this _ (adj_graphOf.1 hu) rfl⟩)

/-- A path 1→2→3 written in two orders in `C83_dag_partial`. -/
example : ∃ m m', Returns (dagShortestPaths ⟨graphOf [.AddEdge 1 2, .AddEdge 2 3]⟩ (fun _ => 1) 1) m ∧
    Returns (dagShortestPaths ⟨graphOf [.AddEdge 2 3, .AddEdge 1 2]⟩ (fun _ => 1) 1) m' ∧ SameScores m m' := by
  have h : ∃ m, Returns (dagShortestPaths ⟨graphOf [.AddEdge 1 2, .AddEdge 2 3]⟩ (fun _ => 1) 1) m :=
    ⟨_, Mono.returns (n := 20) (dagShortestPaths_mono _ _ _) rfl⟩
  have h' : ∃ m, Returns (dagShortestPaths ⟨graphOf [.AddEdge 2 3, .AddEdge 1 2]⟩ (fun _ => 1) 1) m :=
    ⟨_, Mono.returns (n := 20) (dagShortestPaths_mono _ _ _) rfl⟩
  obtain ⟨m, h⟩ := h
  obtain ⟨m', h'⟩ := h'
  exact ⟨m, m', h, h', C83_dag_partial _ _ (graphOf_built _) (graphOf_built _)
    (sameGraph_of_lists (graphOf_built _) (graphOf_built _) (by decide) (by decide))
    (acyclic_graphOf (fun v => v.id.toNat) (by decide)) _ 1 m m' h h'⟩

end GC
