/-
Property C131: what more vertices and edges can change.
-/
import Verif.Proofs.Larger
import Verif.Props.Reversed
namespace GC
open DirectedGraph TopoSort ShortestPath MaxFlow

/-- C131: commands that add something give a larger graph, and commands that add edges between vertices of the graph leave its vertices. -/
theorem C131_commands (g : DirectedGraph) (h : Built g) (cs : List GraphCommand) :
    ((∀ c ∈ cs, (∃ v, c = .AddVertex v) ∨ ∃ a b, c = .AddEdge a b) → Larger g (GraphCommand.applyCommands cs g)) ∧
    ((∀ c ∈ cs, ∃ a b, c = .AddEdge a b ∧ g.containsVertex a = true ∧ g.containsVertex b = true) →
      MoreEdges g (GraphCommand.applyCommands cs g)) := by
  have h1 := C01_apply_commands cs g h
  have e1 : ∀ v, (GraphCommand.applyCommands cs g).containsVertex v = true ↔ (g.toSet.run cs).V v := fun v => by rw [← h1]; rfl
  have e2 : ∀ e, (GraphCommand.applyCommands cs g).containsEdge e = true ↔ (g.toSet.run cs).E e := fun v => by rw [← h1]; rfl
  have grow : ∀ (cs : List GraphCommand) (G : SetGraph), (∀ c ∈ cs, (∃ v, c = .AddVertex v) ∨ ∃ a b, c = .AddEdge a b) →
      (∀ v, G.V v → (G.run cs).V v) ∧ ∀ e, G.E e → (G.run cs).E e := by
    intro cs
    induction cs with
    | nil => exact fun G _ => ⟨fun _ h => h, fun _ h => h⟩
    | cons c cs ih =>
      intro G hc
      obtain ⟨i1, i2⟩ := ih (G.step c) fun d hd => hc d (List.mem_cons_of_mem _ hd)
      rcases hc c List.mem_cons_self with ⟨v, rfl⟩ | ⟨a, b, rfl⟩
      · exact ⟨fun v hv => i1 v (by simp [SetGraph.step, hv]), fun e he => i2 e (by simp [SetGraph.step, he])⟩
      · exact ⟨fun v hv => i1 v (by simp [SetGraph.step, hv]), fun e he => i2 e (by simp [SetGraph.step, he])⟩
  have keep : ∀ (cs : List GraphCommand) (G : SetGraph), (∀ c ∈ cs, ∃ a b, c = .AddEdge a b ∧ G.V a ∧ G.V b) → ∀ v, (G.run cs).V v → G.V v := by
    intro cs
    induction cs with
    | nil => exact fun G _ v hv => hv
    | cons c cs ih =>
      intro G hc v hv
      obtain ⟨a, b, rfl, ha, hb⟩ := hc c List.mem_cons_self
      have back : ∀ v, (G.step (.AddEdge a b)).V v → G.V v := by
        intro v hv
        simp only [SetGraph.step] at hv
        rcases hv with hv | rfl | rfl
        · exact hv
        · exact ha
        · exact hb
      refine back v (ih _ (fun d hd => ?_) v hv)
      obtain ⟨x, y, rfl, hx, hy⟩ := hc d (List.mem_cons_of_mem _ hd)
      exact ⟨x, y, rfl, by simp [SetGraph.step, hx], by simp [SetGraph.step, hy]⟩
  refine ⟨fun hc => ⟨fun v hv => (e1 v).2 ((grow cs _ hc).1 v hv), fun e he => (e2 e).2 ((grow cs _ hc).2 e he)⟩, fun hc => ?_⟩
  have hc' : ∀ c ∈ cs, (∃ v, c = .AddVertex v) ∨ ∃ a b, c = .AddEdge a b := fun c hcm => by
    obtain ⟨a, b, e, _⟩ := hc c hcm
    exact .inr ⟨a, b, e⟩
  exact ⟨⟨fun v hv => (e1 v).2 ((grow cs _ hc').1 v hv), fun e he => (e2 e).2 ((grow cs _ hc').2 e he)⟩,
    fun v hv => keep cs g.toSet hc v ((e1 v).1 hv)⟩

/-- C131: in the larger graph the traversals visit at least the same vertices, and the path iterators yield at least the same paths. -/
theorem C131_iterators (g g' : DirectedGraph) (h : Built g) (h' : Built g') (hl : Larger g g') (s : VertexId) :
    (∃ out out', Returns (Prog.collect (DepthFirstIter.next g) (DepthFirstIter.from_ s)) out ∧
      Returns (Prog.collect (DepthFirstIter.next g') (DepthFirstIter.from_ s)) out' ∧ out ⊆ out') ∧
    (∃ out out', Returns (Prog.collect (BreadthFirstIter.next g) (BreadthFirstIter.from_ s)) out ∧
      Returns (Prog.collect (BreadthFirstIter.next g') (BreadthFirstIter.from_ s)) out' ∧ out ⊆ out') ∧
    (∃ out out', Returns (Prog.collect (DepthFirstPathIter.next g) (DepthFirstPathIter.from_ s)) out ∧
      Returns (Prog.collect (DepthFirstPathIter.next g') (DepthFirstPathIter.from_ s)) out' ∧ out ⊆ out') ∧
    ∃ out out', Returns (Prog.collect (BreadthFirstPathIter.next g) (BreadthFirstPathIter.from_ s)) out ∧
      Returns (Prog.collect (BreadthFirstPathIter.next g') (BreadthFirstPathIter.from_ s)) out' ∧ out ⊆ out' := by
  refine ⟨?_, ?_, ?_, ?_⟩
  · obtain ⟨o, h1, _, _, h3⟩ := C24_dfs_exact g h s
    obtain ⟨o', h1', _, _, h3'⟩ := C24_dfs_exact g' h' s
    exact ⟨o, o', h1, h1', fun v hv => (h3' v).2 (hl.reach ((h3 v).1 hv))⟩
  · obtain ⟨o, h1, _, h3, _⟩ := C25_bfs_exact g h s
    obtain ⟨o', h1', _, h3', _⟩ := C25_bfs_exact g' h' s
    exact ⟨o, o', h1, h1', fun v hv => (h3' v).2 (hl.reach ((h3 v).1 hv))⟩
  · obtain ⟨o, h1, _, h3⟩ := C27_dfs_paths g h s
    obtain ⟨o', h1', _, h3'⟩ := C27_dfs_paths g' h' s
    exact ⟨o, o', h1, h1', fun v hv => (h3' v).2 (hl.simplePath ((h3 v).1 hv))⟩
  · obtain ⟨o, h1, _, h3, _⟩ := C28_bfs_paths g h s
    obtain ⟨o', h1', _, h3', _⟩ := C28_bfs_paths g' h' s
    exact ⟨o, o', h1, h1', fun v hv => (h3' v).2 (hl.simplePath ((h3 v).1 hv))⟩

/-- C131: if gc-short-path finds a path, it finds one in the larger graph, and none that is longer. -/
theorem C131_short_path (H H' : ScoredHeap) (g g' : DirectedGraph) (h : Built g) (h' : Built g') (hl : Larger g g')
    (hsize : g'.vertexCount < 2 ^ 63) (start end_ : VertexId) (sp : ScoredPath) (hr : Returns (AStar.gcShortPath H g start end_) (some sp)) :
    ∃ sp', Returns (AStar.gcShortPath H' g' start end_) (some sp') ∧ sp'.score ≤ sp.score := by
  obtain ⟨r, h1, h2, h3⟩ := C33_short_path_optimal H g h (by have := hl.vertexCount h; omega) start end_
  obtain ⟨r', h1', h2', h3'⟩ := C33_short_path_optimal H' g' h' hsize start end_
  cases h1.unique hr
  obtain ⟨a1, _, a2, _⟩ := h3 sp rfl
  have hr : Reach g' start end_ := by
    by_contra hc
    exact absurd (h2.2 fun k => hc (hl.reach k)) (by simp)
  cases r' with
  | none => exact absurd hr (h2'.1 rfl)
  | some sp' =>
    obtain ⟨_, _, b2, b3⟩ := h3' sp' rfl
    have := b3 _ (hl.walk a1)
    exact ⟨sp', h1', by omega⟩

/-- C131: if gc-csp finds a path under constraints (with fewer than `2 ^ 63` vertices), it finds one in the larger graph, and none that is
longer. -/
theorem C131_csp (H H' : ScoredHeap) (g g' : DirectedGraph) (h : Built g) (h' : Built g') (hl : Larger g g') (start end_ : VertexId)
    (cs : List Constraint) (sp : ScoredPath) (hr : Returns (AStar.gcCsp H g start end_ cs) (some sp)) (hlen : sp.path.vertices.length < 2 ^ 63) :
    ∃ sp', Returns (AStar.gcCsp H' g' start end_ cs) (some sp') ∧ sp'.score ≤ sp.score := by
  obtain ⟨a1, a2, a, b, ha, hb, hab⟩ := C35_constrained_valid H g h _ _ start end_ cs sp hr
  have hne : sp.path.vertices ≠ [] := by intro e; rw [e] at a1; cases a1.2.1
  have hs : sp.score = (sp.path.vertices.length : Int) - 1 := by
    rw [oneWeightedEdge_eq g _ hne] at ha
    split at ha
    · cases ha
      cases hb
      rw [hab]
      simp
    · cases ha
  obtain ⟨sp', b1, _, b3, _, b5⟩ := C37_finds_solution_partial H' g' h' start end_ cs sp.path (hl.walk a1) hlen (by
    intro c hc
    have := a2 c hc
    rwa [show sp = ⟨sp.path, (sp.path.vertices.length : Int) - 1⟩ by rw [← hs]] at this)
  exact ⟨sp', b1, by omega⟩

/-- C131: if `topological_sort` finds an order of the larger graph, it finds one of the smaller; and if the smaller graph has a cycle through two
vertices or more, the larger graph is not sorted. -/
theorem C131_topological_sort (g g' : DirectedGraph) (h : Built g) (h' : Built g') (hl : Larger g g') :
    (∃ r r', Returns (topologicalSort g) r ∧ Returns (topologicalSort g') r' ∧ (r'.isSome = true → r.isSome = true)) ∧
    ∀ l, IsCycle g l → 2 ≤ l.length → Returns (topologicalSort g') none := by
  obtain ⟨r, h1, h2⟩ := C39_exact g h
  obtain ⟨r', h1', h2'⟩ := C39_exact g' h'
  refine ⟨⟨r, r', h1, h1', fun hs => h2.2 ?_⟩, ?_⟩
  · rcases h2'.1 hs with ha | ⟨u, hu, hout, hcy⟩
    · exact .inl (hl.acyclic ha)
    · by_cases hu' : Adj g u u
      · exact .inr ⟨u, hu', fun v hv => hout v (hl.adj hv), fun v hv => hcy v (hl.trans hv)⟩
      · refine .inl fun v hv => ?_
        cases hcy v (hl.trans hv)
        obtain ⟨w, h3, _⟩ := Relation.TransGen.head'_iff.1 hv
        cases hout w (hl.adj h3)
        exact hu' h3
  · intro l hc hlen
    cases r' with
    | none => exact h1'
    | some o =>
      exfalso
      obtain ⟨h3, h4, h5⟩ := hl.isCycle hc
      obtain ⟨a, l, rfl⟩ := List.exists_cons_of_ne_nil h3
      obtain ⟨b, l, rfl⟩ : ∃ b l', l = b :: l' := List.exists_cons_of_ne_nil (by rintro rfl; simp at hlen)
      have hab : a ≠ b := by rintro rfl; simp at h4
      have e : ((a :: b :: l) ++ (a :: b :: l).head?.toList) = a :: b :: (l ++ [a]) := by simp
      rw [e] at h5
      have hba : Relation.ReflTransGen (Adj g') b a := by
        have := List.relationReflTransGen_of_exists_isChain_cons (r := Adj g') (a := b) (b := a) (l ++ [a]) (List.isChain_cons_cons.1 h5).2 (by simp)
        exact this
      have haa := Relation.TransGen.head' (List.isChain_cons_cons.1 h5).1 hba
      rcases h2'.1 rfl with ha | ⟨u, hu, hout, hcy⟩
      · exact ha a haa
      · cases hcy a haa
        exact hab (hout b (List.isChain_cons_cons.1 h5).1).symm

/-- C131: scores of `bellman_ford` and `spfa` never rise: if they return maps for both graphs, every entry of the one for the smaller graph has an
entry in the other with the same key and a score that is not greater. A negative cycle stays. -/
theorem C131_weights (g g' : DirectedGraph) (h : Built g) (h' : Built g') (hl : Larger g g') (w : WeightFn) (hw : SmallWeights g' w)
    (s : VertexId) :
    (∀ m m', bellmanFord g w s = .done (some m) → bellmanFord g' w s = .done (some m') →
      ∀ v sp, (v, sp) ∈ m → ∃ sp', (v, sp') ∈ m' ∧ sp'.score ≤ sp.score) ∧
    (∀ m m', Returns (spfa g w s) m → Returns (spfa g' w s) m' → ∀ v sp, (v, sp) ∈ m → ∃ sp', (v, sp') ∈ m' ∧ sp'.score ≤ sp.score) ∧
    (bellmanFord g w s = .done none → ∀ r, bellmanFord g' w s = .done r → r = none) ∧ (Panics (spfa g w s) → Panics (spfa g' w s)) := by
  have hs := hl.smallWeights h hw
  have one : ∀ m m' : Scores, LightestWalks g w s m → LightestWalks g' w s m' → ∀ v sp, (v, sp) ∈ m → ∃ sp', (v, sp') ∈ m' ∧ sp'.score ≤ sp.score := by
    intro m m' hm hm' v sp h1
    obtain ⟨a1, a2, _⟩ := hm.2.2 _ _ h1
    have hk : v ∈ m'.map Prod.fst := by
      rw [hm'.2.1]
      exact hl.reach ((hm.2.1 v).1 (List.mem_map.2 ⟨_, h1, rfl⟩))
    obtain ⟨⟨v1, sp'⟩, h2, e⟩ := List.mem_map.1 hk
    dsimp only at e
    subst e
    refine ⟨sp', h2, ?_⟩
    rw [a2]
    exact (hm'.2.2 _ _ h2).2.2 _ (hl.walk a1)
  refine ⟨fun m m' a b => one m m' (C43_bellman_ford_exact g h w hs s m a) (C43_bellman_ford_exact g' h' w hw s m' b),
    fun m m' a b => one m m' ((C45_spfa_returns_iff g h w hs s).2 m a) ((C45_spfa_returns_iff g' h' w hw s).2 m' b), fun a r b => ?_, fun a => ?_⟩
  · exact (C44_none_iff_negative_cycle g' h' w hw s r b).2 (hl.negativeCycle ((C44_none_iff_negative_cycle g h w hs s none a).1 rfl))
  · refine C45_spfa_negative_cycle g' h' w hw s (hl.negativeCycle ?_)
    by_contra hn
    obtain ⟨m, hm⟩ := (C45_spfa_returns_iff g h w hs s).1.2 hn
    exact hm.not_panics a

/-- C131: edges added between the vertices of a graph leave every Hamiltonian path, and a Hamiltonian cycle is found if one was found before. -/
theorem C131_hamiltonian (g g' : DirectedGraph) (h : Built g) (h' : Built g') (hl : MoreEdges g g') :
    (∃ ps ps', Returns (Prog.collect (Hamiltonian.next g) (Hamiltonian.iter g)) ps ∧
      Returns (Prog.collect (Hamiltonian.next g') (Hamiltonian.iter g')) ps' ∧ ps ⊆ ps') ∧
    (Returns (Hamiltonian.isHamiltonian g) true → Returns (Hamiltonian.isHamiltonian g') true) ∧
    ∃ r r', Returns (CycleAlg.hamiltonian g) r ∧ Returns (CycleAlg.hamiltonian g') r' ∧ (r.isSome = true → r'.isSome = true) := by
  refine ⟨?_, ?_, ?_⟩
  · obtain ⟨ps, h1, _, h3⟩ := C47_hamiltonian_paths g h
    obtain ⟨ps', h1', _, h3'⟩ := C47_hamiltonian_paths g' h'
    exact ⟨ps, ps', h1, h1', fun p hp => (h3' p).2 ⟨((h3 p).1 hp).1, hl.hamiltonianPath ((h3 p).1 hp).2⟩⟩
  · intro ht
    obtain ⟨b, h1, h2⟩ := C47_is_hamiltonian g h
    obtain ⟨b', h1', h2'⟩ := C47_is_hamiltonian g' h'
    cases h1.unique ht
    obtain ⟨l, hp⟩ := h2.1 rfl
    rwa [h2'.2 ⟨l, hl.hamiltonianPath hp⟩] at h1'
  · obtain ⟨r, h1, h2, _⟩ := C51_hamiltonian_cycle g h
    obtain ⟨r', h1', _, h3'⟩ := C51_hamiltonian_cycle g' h'
    refine ⟨r, r', h1, h1', fun hs => ?_⟩
    obtain ⟨c, rfl⟩ := Option.isSome_iff_exists.1 hs
    cases r' with
    | none => exact absurd (hl.hamiltonianCycle (h2 c rfl)) (h3'.1 rfl _)
    | some _ => rfl

/-- C131 (partial), cycles: if the cycles of the larger graph are listed completely (C49), every cycle listed for the smaller graph is listed.
Missing: other graphs (`C131_counterexample`). -/
theorem C131_cycles_partial (g g' : DirectedGraph) (h : Built g) (h' : Built g') (hl : Larger g g')
    (hc : RootReachable g' ∨ StronglyConnected g') :
    ∃ cs cs', Returns (CycleAlg.takeAll g) cs ∧ Returns (CycleAlg.takeAll g') cs' ∧ cs ⊆ cs' := by
  obtain ⟨cs, h1, _, h3, _⟩ := C48_cycle_iter_sound g h
  obtain ⟨cs', h1', _, h3', _⟩ := C48_cycle_iter_sound g' h'
  obtain ⟨x, h4, h5⟩ := C49_complete_partial g' h' hc
  cases h4.unique h1'
  refine ⟨cs, cs', h1, h1', fun c hcm => ?_⟩
  obtain ⟨hcy, hsm⟩ := h3 c hcm
  obtain ⟨d, hd, hrot⟩ := h5 _ (hl.isCycle hcy)
  have := canonical_unique (h3' d hd).1.2.1 hrot (h3' d hd).2 hsm
  cases c
  cases d
  cases this
  exact hd

/-- C131 (partial), `max_flow`: in a larger graph, or with greater capacities, the reported value is not smaller if every vertex other than the ends
has at most one incoming edge there, or every such vertex at most one outgoing edge; and on all graphs it does not become 0.
Missing: other graphs (`C131_counterexample`). -/
theorem C131_max_flow_partial (g g' : DirectedGraph) (h : Built g) (h' : Built g') (hl : Larger g g') (cap cap' : Edge → UInt64)
    (hc : ∀ e, g.containsEdge e = true → (cap e).toNat ≤ (cap' e).toNat) (s t : VertexId) (hst : s ≠ t) (n n' : Nat) (m m' : FlowMap)
    (hm : Returns (maxFlow g cap s t) (n, m)) (hm' : Returns (maxFlow g' cap' s t) (n', m')) :
    (n' = 0 → n = 0) ∧
    ((∀ u u' v, v ≠ s → v ≠ t → Adj g' u v → Adj g' u' v → u = u') ∨ (∀ u v v', u ≠ s → u ≠ t → Adj g' u v → Adj g' u v' → v = v') →
      n ≤ n') := by
  have key : IsMaxFlowValue g' cap' s t n' → n ≤ n' := by
    intro hmax
    obtain ⟨f, _, h2, _⟩ := maxFlow_result h hst hm
    have := hmax.2 _ (hl.feasible h h' hc h2.feasible)
    have hv := h2.value
    simp only at hv
    unfold netOut at this hv
    rw [(hl.flows h h' f s).1, (hl.flows h h' f s).2] at this
    omega
  refine ⟨fun hz => ?_, ?_⟩
  · have := key (by rw [hz]; exact (C55_zero_partial g' h' cap' s t hst n' m' hm').1 hz)
    omega
  · rintro (hin | hout)
    · exact key (C55_single_entry_partial g' h' cap' s t hst hin n' m' hm')
    · exact key (C55_single_exit_partial g' h' cap' s t hst hout n' m' hm')

/-- C131 is false for the value of `max_flow` and for the cycles of a graph: one more edge between vertices of the graph can lower the value (the
edge 2→3 makes a short path that blocks the two others), and can take every cycle from the list (the edge 3→1 enters the only vertex without
incoming edge). -/
theorem C131_counterexample :
    (∃ g g', Built g ∧ Built g' ∧ MoreEdges g g' ∧ (∃ m, Returns (maxFlow g (fun _ => 1) 1 4) (2, m)) ∧
      ∃ m, Returns (maxFlow g' (fun _ => 1) 1 4) (1, m)) ∧
    ∃ g g', Built g ∧ Built g' ∧ MoreEdges g g' ∧ Returns (CycleAlg.takeAll g) [⟨[2, 3]⟩] ∧ Returns (CycleAlg.takeAll g') [] := by
  refine ⟨⟨_, _, graphOf_built _, Built.applyCommands (graphOf_built _) _,
    (C131_commands (graphOf [.AddEdge 1 2, .AddEdge 3 4, .AddEdge 1 5, .AddEdge 5 6, .AddEdge 6 3, .AddEdge 2 7, .AddEdge 7 8, .AddEdge 8 4])
      (graphOf_built _) [.AddEdge 2 3]).2 ?_, flow_value (k := 60) (by decide +kernel), flow_value (k := 60) (by decide +kernel)⟩,
    _, _, graphOf_built _, Built.applyCommands (graphOf_built _) _,
    (C131_commands (graphOf [.AddVertex 4, .AddEdge 2 4, .AddEdge 1 2, .AddEdge 2 3, .AddEdge 3 2]) (graphOf_built _) [.AddEdge 3 1]).2 ?_, ?_, ?_⟩
  · intro c hc
    cases List.mem_singleton.1 hc
    exact ⟨2, 3, rfl, by decide, by decide⟩
  · intro c hc
    cases List.mem_singleton.1 hc
    exact ⟨3, 1, rfl, by decide, by decide⟩
  · exact Mono.returns (n := 20) (Mono.collect (mono_cycle_next _) _) (by decide)
  · exact Mono.returns (n := 20) (Mono.collect (mono_cycle_next _) _) (by decide)

/-! ### Worked cases -/

/-- `exLoop` with the edge 0→2 added. -/
theorem exLarger : MoreEdges (graphOf exLoop) (GraphCommand.applyCommands [.AddEdge 0 2] (graphOf exLoop)) :=
  (C131_commands _ (graphOf_built _) _).2 (by
    intro c hc
    cases List.mem_singleton.1 hc
    exact ⟨0, 2, rfl, by decide, by decide⟩)

/-- It in `C131_iterators`, `C131_topological_sort` (the cycle 1→2→3→1) and `C131_hamiltonian`. -/
example := And.intro (C131_iterators _ _ (graphOf_built _) (Built.applyCommands (graphOf_built _) _) exLarger.1 0)
  (And.intro ((C131_topological_sort _ _ (graphOf_built _) (Built.applyCommands (graphOf_built _) _) exLarger.1).2 [1, 2, 3]
    ⟨by decide, by decide, by unfold Adj; decide⟩ (by decide))
    (C131_hamiltonian _ _ (graphOf_built _) (Built.applyCommands (graphOf_built _) _) exLarger))

/-- The path from 0 to 3 in `C131_short_path` and `C131_csp`: the added edge makes it shorter. -/
example (H H' : ScoredHeap) (sp : ScoredPath) (h1 : Returns (AStar.gcShortPath H (graphOf exLoop) 0 3) (some sp))
    (h2 : Returns (AStar.gcCsp H (graphOf exLoop) 0 3 [.ContainsVertex 2]) (some sp)) (h3 : sp.path.vertices.length < 2 ^ 63) :=
  And.intro (C131_short_path H H' _ _ (graphOf_built _) (Built.applyCommands (graphOf_built _) _) exLarger.1 (by decide) 0 3 sp h1)
    (C131_csp H H' _ _ (graphOf_built _) (Built.applyCommands (graphOf_built _) _) exLarger.1 0 3 [.ContainsVertex 2] sp h2 h3)

/-- Such a path is found. -/
example (H : ScoredHeap) : ∃ sp, Returns (AStar.gcCsp H (graphOf exLoop) 0 3 [.ContainsVertex 2]) (some sp) := by
  obtain ⟨sp, h, _⟩ := C37_finds_solution_partial H (graphOf exLoop) (graphOf_built _) 0 3 [.ContainsVertex 2] ⟨[0, 1, 2, 3]⟩
    ⟨by unfold Adj; decide, rfl, rfl⟩ (by decide) (by
      intro c hc
      cases List.mem_singleton.1 hc
      exact ⟨2, rfl⟩)
  exact ⟨sp, h⟩

/-- `C131_weights` for `exLarger`, each edge of weight 1: the score of 2 falls from 2 to 1. -/
example : bellmanFord (graphOf exLoop) (fun _ => 1) 0 =
      .done (some [(0, ⟨⟨[0]⟩, 0⟩), (1, ⟨⟨[0, 1]⟩, 1⟩), (2, ⟨⟨[0, 1, 2]⟩, 2⟩), (3, ⟨⟨[0, 1, 2, 3]⟩, 3⟩)]) ∧
    bellmanFord (GraphCommand.applyCommands [.AddEdge 0 2] (graphOf exLoop)) (fun _ => 1) 0 =
      .done (some [(0, ⟨⟨[0]⟩, 0⟩), (1, ⟨⟨[0, 1]⟩, 1⟩), (2, ⟨⟨[0, 2]⟩, 1⟩), (3, ⟨⟨[0, 2, 3]⟩, 2⟩)]) ∧
    SmallWeights (GraphCommand.applyCommands [.AddEdge 0 2] (graphOf exLoop)) (fun _ => 1) :=
  ⟨by decide, by decide, fun _ _ => by dsimp only; decide⟩

example := C131_weights _ _ (graphOf_built _) (Built.applyCommands (graphOf_built _) _) exLarger.1 (fun _ => 1) (fun _ _ => by dsimp only; decide) 0

/-- `C131_cycles_partial` for `exLarger`: every vertex is reached from 0. -/
example := C131_cycles_partial _ _ (graphOf_built _) (Built.applyCommands (graphOf_built _) _) exLarger.1 (.inl (by
  intro v hv
  have hv := mem_vertices.2 hv
  have e : (GraphCommand.applyCommands [.AddEdge 0 2] (graphOf exLoop)).vertices = [0, 1, 2, 3] := by decide
  rw [e] at hv
  have h1 : Adj (GraphCommand.applyCommands [.AddEdge 0 2] (graphOf exLoop)) 0 1 := by unfold Adj; decide
  have h2 : Adj (GraphCommand.applyCommands [.AddEdge 0 2] (graphOf exLoop)) 1 2 := by unfold Adj; decide
  have h3 : Adj (GraphCommand.applyCommands [.AddEdge 0 2] (graphOf exLoop)) 2 3 := by unfold Adj; decide
  refine ⟨0, ⟨by decide, fun u hu => ?_⟩, ?_⟩
  · have : ∀ e ∈ (GraphCommand.applyCommands [.AddEdge 0 2] (graphOf exLoop)).edges, e.dst ≠ 0 := by decide
    exact this _ ((Built.applyCommands (graphOf_built _) _).wf.mem_edges.2 hu) rfl
  · simp only [List.mem_cons, List.not_mem_nil, or_false] at hv
    rcases hv with rfl | rfl | rfl | rfl
    · exact .refl
    · exact .single h1
    · exact .tail (.single h1) h2
    · exact .tail (.tail (.single h1) h2) h3))

/-- The network 1→2→4, to which 1→3→4 is added, in `C131_max_flow_partial`: the value rises from 3 to 6. -/
example : ∃ m m', Returns (maxFlow (graphOf [.AddEdge 1 2, .AddEdge 2 4]) (fun _ => 3) 1 4) (3, m) ∧
    Returns (maxFlow (GraphCommand.applyCommands [.AddEdge 1 3, .AddEdge 3 4] (graphOf [.AddEdge 1 2, .AddEdge 2 4])) (fun _ => 3) 1 4) (6, m') := by
  obtain ⟨m, h⟩ := flow_value (g := graphOf [.AddEdge 1 2, .AddEdge 2 4]) (cap := fun _ => 3) (s := 1) (t := 4) (k := 30) (n := 3) (by decide)
  obtain ⟨m', h'⟩ := flow_value (g := GraphCommand.applyCommands [.AddEdge 1 3, .AddEdge 3 4] (graphOf [.AddEdge 1 2, .AddEdge 2 4]))
    (cap := fun _ => 3) (s := 1) (t := 4) (k := 30) (n := 6) (by decide)
  have := C131_max_flow_partial _ _ (graphOf_built _) (Built.applyCommands (graphOf_built _) _)
    ((C131_commands (graphOf [.AddEdge 1 2, .AddEdge 2 4]) (graphOf_built _) [.AddEdge 1 3, .AddEdge 3 4]).1 (by
      intro c hc
      simp only [List.mem_cons, List.not_mem_nil, or_false] at hc
      rcases hc with rfl | rfl
      · exact .inr ⟨_, _, rfl⟩
      · exact .inr ⟨_, _, rfl⟩)) (fun _ => 3) (fun _ => 3) (fun _ _ => Nat.le_refl _) 1 4 (by decide) 3 6 m m' h h'
  exact ⟨m, m', h, h'⟩

end GC
