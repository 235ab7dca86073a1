/-
Property C130: turning all edges round.
-/
import Verif.Proofs.Reversed
import Verif.Props.Renamed
namespace GC
open DirectedGraph TopoSort ShortestPath MaxFlow

theorem reversed_new : Reversed .new .new := ⟨fun _ => rfl, fun _ _ => rfl⟩

/-- C130: the commands with their edges turned round give the graph with its edges turned round. -/
theorem C130_commands (g g' : DirectedGraph) (h : Built g) (h' : Built g') (hr : Reversed g g') (cs : List GraphCommand) :
    Reversed (GraphCommand.applyCommands cs g) (GraphCommand.applyCommands (cs.map (·.turn)) g') := by
  have hset : ∀ (cs : List GraphCommand) (G G' : SetGraph), (∀ v, G'.V v ↔ G.V v) → (∀ u v, G'.E ⟨v, u⟩ ↔ G.E ⟨u, v⟩) →
      (∀ v, (G'.run (cs.map (·.turn))).V v ↔ (G.run cs).V v) ∧ ∀ u v, (G'.run (cs.map (·.turn))).E ⟨v, u⟩ ↔ (G.run cs).E ⟨u, v⟩ := by
    intro cs
    induction cs with
    | nil => exact fun G G' h1 h2 => ⟨h1, h2⟩
    | cons c cs ih =>
      intro G G' h1 h2
      refine ih (G.step c) (G'.step c.turn) ?_ ?_
      · intro v
        cases c <;> simp only [SetGraph.step, GraphCommand.turn, h1] <;> tauto
      · intro u v
        cases c <;> simp only [SetGraph.step, GraphCommand.turn, h2, Edge.mk.injEq, ne_eq] <;> tauto
  have h1 := C01_apply_commands cs g h
  have h2 := C01_apply_commands (cs.map (·.turn)) g' h'
  obtain ⟨h3, h4⟩ := hset cs g.toSet g'.toSet (fun v => by simp [toSet, hr.vertices]) (fun u v => by simp [toSet, hr.edges])
  rw [← h1, ← h2] at h3 h4
  exact ⟨fun v => Bool.eq_iff_iff.2 (h3 v), fun u v => Bool.eq_iff_iff.2 (h4 u v)⟩

theorem exReversed (cs : List GraphCommand) : Reversed (graphOf cs) (graphOf (cs.map (·.turn))) :=
  C130_commands _ _ Built.new Built.new reversed_new cs

/-- C130: the same vertices are listed, the edges are listed turned round, the numbers stay, and the two degrees change places. -/
theorem C130_listings (g g' : DirectedGraph) (h : Built g) (h' : Built g') (hr : Reversed g g') (v : VertexId) :
    g'.vertices.Perm g.vertices ∧ g'.edges.Perm (g.edges.map fun e => ⟨e.dst, e.src⟩) ∧ g'.vertexCount = g.vertexCount ∧
    g'.edgeCount = g.edgeCount ∧ g'.degreeOut v = g.degreeIn v ∧ g'.degreeIn v = g.degreeOut v := by
  have he := hr.edges_perm h h'
  refine ⟨hr.vertices_perm h h', he, hr.vertexCount h h', ?_, ?_, ?_⟩
  · have e1 : ∀ p : Edge → Bool, (∀ e, p (Reversed.edge e) = p e) → (g'.edges.filter p).length = (g.edges.filter p).length := by
      intro p hp
      rw [(he.filter p).length_eq, List.filter_map, List.length_map]
      congr 1
      exact List.filter_congr fun e _ => hp e
    rw [C04_edge_count_formula g h, C04_edge_count_formula g' h', e1, e1]
    · intro e; simp [eq_comm]
    · intro e; simp [eq_comm]
  · obtain ⟨_, h1⟩ := C03_degrees_exact g h v
    obtain ⟨h2, _⟩ := C03_degrees_exact g' h' v
    rw [h1, h2, (he.filter _).length_eq, List.filter_map, List.length_map]
    rfl
  · obtain ⟨h1, _⟩ := C03_degrees_exact g h v
    obtain ⟨_, h2⟩ := C03_degrees_exact g' h' v
    rw [h1, h2, (he.filter _).length_eq, List.filter_map, List.length_map]
    rfl

/-- C130: the traversals from `s` visit `t` exactly if those from `t` over the turned edges visit `s`. -/
theorem C130_traversals (g g' : DirectedGraph) (h : Built g) (h' : Built g') (hr : Reversed g g') (s t : VertexId) :
    (∃ out out', Returns (Prog.collect (DepthFirstIter.next g) (DepthFirstIter.from_ s)) out ∧
      Returns (Prog.collect (DepthFirstIter.next g') (DepthFirstIter.from_ t)) out' ∧ (t ∈ out ↔ s ∈ out')) ∧
    ∃ out out', Returns (Prog.collect (BreadthFirstIter.next g) (BreadthFirstIter.from_ s)) out ∧
      Returns (Prog.collect (BreadthFirstIter.next g') (BreadthFirstIter.from_ t)) out' ∧ (t ∈ out ↔ s ∈ out') := by
  constructor
  · obtain ⟨o, h1, _, _, h3⟩ := C24_dfs_exact g h s
    obtain ⟨o', h1', _, _, h3'⟩ := C24_dfs_exact g' h' t
    exact ⟨o, o', h1, h1', by rw [h3, h3', hr.reach]⟩
  · obtain ⟨o, h1, _, h3, _⟩ := C25_bfs_exact g h s
    obtain ⟨o', h1', _, h3', _⟩ := C25_bfs_exact g' h' t
    exact ⟨o, o', h1, h1', by rw [h3, h3', hr.reach]⟩

/-- C130: gc-short-path finds a path of the same length between the ends in the other order, or none. -/
theorem C130_short_path (H H' : ScoredHeap) (g g' : DirectedGraph) (h : Built g) (h' : Built g') (hr : Reversed g g')
    (hsize : g.vertexCount < 2 ^ 63) (start end_ : VertexId) :
    ∃ r r', Returns (AStar.gcShortPath H g start end_) r ∧ Returns (AStar.gcShortPath H' g' end_ start) r' ∧
      r.map ScoredPath.score = r'.map ScoredPath.score := by
  obtain ⟨r, h1, h2, h3⟩ := C33_short_path_optimal H g h hsize start end_
  obtain ⟨r', h1', h2', h3'⟩ := C33_short_path_optimal H' g' h' (by rwa [hr.vertexCount h h']) end_ start
  refine ⟨r, r', h1, h1', ?_⟩
  rw [hr.reach, ← h2] at h2'
  cases r with
  | none => rw [h2'.2 rfl]
  | some sp =>
    cases r' with
    | none => cases h2'.1 rfl
    | some sp' =>
      obtain ⟨a1, _, a2, a3⟩ := h3 sp rfl
      obtain ⟨b1, _, b2, b3⟩ := h3' sp' rfl
      have := a3 _ ((hr.symm.walk _ _ _).2 b1)
      have := b3 _ ((hr.walk _ _ _).2 a1)
      simp only [List.length_reverse] at *
      simp only [Option.map_some, Option.some.injEq]
      omega

/-- C130: with the weights of the turned edges, `bellman_ford` from `s` has an entry for `t` exactly if the one from `t` has one for `s`, and the
two have the same score; `spfa` likewise. -/
theorem C130_weights (g g' : DirectedGraph) (h : Built g) (h' : Built g') (hr : Reversed g g') (w w' : WeightFn)
    (hw : SmallWeights g w) (hww : ∀ u v, w' ⟨v, u⟩ = w ⟨u, v⟩) (s t : VertexId) :
    (∀ m m', bellmanFord g w s = .done (some m) → bellmanFord g' w' t = .done (some m') →
      ∀ x, (∃ sp, (t, sp) ∈ m ∧ sp.score = x) ↔ ∃ sp, (s, sp) ∈ m' ∧ sp.score = x) ∧
    ∀ m m', Returns (spfa g w s) m → Returns (spfa g' w' t) m' →
      ∀ x, (∃ sp, (t, sp) ∈ m ∧ sp.score = x) ↔ ∃ sp, (s, sp) ∈ m' ∧ sp.score = x := by
  have one : ∀ (g g' : DirectedGraph), Reversed g g' → ∀ (w w' : WeightFn), (∀ e, w' (Reversed.edge e) = w e) → ∀ s t (m m' : Scores),
      LightestWalks g w s m → LightestWalks g' w' t m' → ∀ x, (∃ sp, (t, sp) ∈ m ∧ sp.score = x) → ∃ sp, (s, sp) ∈ m' ∧ sp.score = x := by
    intro g g' hr w w' hww s t m m' hm hm' x hx
    obtain ⟨sp, h1, rfl⟩ := hx
    obtain ⟨a1, a2, a3⟩ := hm.2.2 _ _ h1
    have hk : s ∈ m'.map Prod.fst := by
      rw [hm'.2.1, hr.reach, ← hm.2.1]
      exact List.mem_map.2 ⟨_, h1, rfl⟩
    obtain ⟨⟨v, sp'⟩, h2, e⟩ := List.mem_map.1 hk
    dsimp only at e
    subst e
    obtain ⟨b1, b2, b3⟩ := hm'.2.2 _ _ h2
    refine ⟨sp', h2, ?_⟩
    have l1 := a3 _ ((hr.symm.walk _ _ _).2 b1)
    have l2 := b3 _ ((hr.walk _ _ _).2 a1)
    rw [Reversed.walkWeight (w := w') (w' := w) fun e => (hww (Reversed.edge e)).symm] at l1
    rw [Reversed.walkWeight hww] at l2
    omega
  have hww' : ∀ e, w' (Reversed.edge e) = w e := fun e => hww _ _
  have hw' := hr.smallWeights h h' hww' hw
  have both : ∀ m m' : Scores, LightestWalks g w s m → LightestWalks g' w' t m' →
      ∀ x, (∃ sp, (t, sp) ∈ m ∧ sp.score = x) ↔ ∃ sp, (s, sp) ∈ m' ∧ sp.score = x := fun m m' a b x =>
    ⟨one g g' hr w w' hww' s t m m' a b x, one g' g hr.symm w' w (fun e => (hww' (Reversed.edge e)).symm) t s m' m b a x⟩
  exact ⟨fun m m' a b => both m m' (C43_bellman_ford_exact g h w hw s m a) (C43_bellman_ford_exact g' h' w' hw' t m' b),
    fun m m' a b => both m m' ((C45_spfa_returns_iff g h w hw s).2 m a) ((C45_spfa_returns_iff g' h' w' hw' t).2 m' b)⟩

/-- C130: the Hamiltonian paths found are the same paths backwards, and a Hamiltonian cycle is found exactly if it was before. -/
theorem C130_hamiltonian (g g' : DirectedGraph) (h : Built g) (h' : Built g') (hr : Reversed g g') :
    (∃ ps ps', Returns (Prog.collect (Hamiltonian.next g) (Hamiltonian.iter g)) ps ∧
      Returns (Prog.collect (Hamiltonian.next g') (Hamiltonian.iter g')) ps' ∧ ps'.Perm (ps.map fun p => ⟨p.vertices.reverse⟩)) ∧
    (∃ b, Returns (Hamiltonian.isHamiltonian g) b ∧ Returns (Hamiltonian.isHamiltonian g') b) ∧
    ∃ r r', Returns (CycleAlg.hamiltonian g) r ∧ Returns (CycleAlg.hamiltonian g') r' ∧ (r = none ↔ r' = none) := by
  have hinj : Function.Injective fun p : Path => (⟨p.vertices.reverse⟩ : Path) := by
    intro a b hab
    cases a
    cases b
    simpa using hab
  refine ⟨?_, ?_, ?_⟩
  · obtain ⟨ps, h1, h2, h3⟩ := C47_hamiltonian_paths g h
    obtain ⟨ps', h1', h2', h3'⟩ := C47_hamiltonian_paths g' h'
    refine ⟨ps, ps', h1, h1', (List.perm_ext_iff_of_nodup h2' ((List.nodup_map_iff hinj).2 h2)).2 fun p => ?_⟩
    obtain ⟨l, rfl⟩ : ∃ l : List VertexId, p = (fun p : Path => (⟨p.vertices.reverse⟩ : Path)) ⟨l⟩ := ⟨p.vertices.reverse, by simp⟩
    rw [h3', List.mem_map_of_injective hinj, h3]
    dsimp only
    rw [hr.hamiltonianPath]
    simp
  · obtain ⟨b, h1, h2⟩ := C47_is_hamiltonian g h
    obtain ⟨b', h1', h2'⟩ := C47_is_hamiltonian g' h'
    have : b = b' := by
      rw [Bool.eq_iff_iff, h2, h2']
      exact ⟨fun ⟨l, hl⟩ => ⟨_, (hr.hamiltonianPath l).2 hl⟩, fun ⟨l, hl⟩ => ⟨_, (hr.symm.hamiltonianPath l).2 hl⟩⟩
    exact ⟨b, h1, this ▸ h1'⟩
  · obtain ⟨r, h1, _, h2⟩ := C51_hamiltonian_cycle g h
    obtain ⟨r', h1', _, h2'⟩ := C51_hamiltonian_cycle g' h'
    refine ⟨r, r', h1, h1', ?_⟩
    rw [h2, h2']
    exact ⟨fun k l hl => k _ ((hr.symm.hamiltonianCycle l).2 hl), fun k l hl => k _ ((hr.hamiltonianCycle l).2 hl)⟩

/-- C130 (partial), `topological_sort`: in a graph without self-loop an order is found exactly if one is found for the turned edges, and either
order read backwards is an order of the other graph. Missing: graphs with self-loops (`C130_counterexample`). -/
theorem C130_topological_sort_partial (g g' : DirectedGraph) (h : Built g) (h' : Built g') (hr : Reversed g g') (hl : LoopFree g) :
    ∃ r r', Returns (topologicalSort g) r ∧ Returns (topologicalSort g') r' ∧ r.isSome = r'.isSome ∧
      (∀ l, r = some l → TopologicalOrder g' l.reverse) ∧ ∀ l, r' = some l → TopologicalOrder g l.reverse := by
  have turn : ∀ (g g' : DirectedGraph), Reversed g g' → ∀ l, TopologicalOrder g l → TopologicalOrder g' l.reverse := by
    rintro g g' hr l ⟨h1, h2, h3⟩
    refine ⟨List.nodup_reverse.2 h1, fun v => by rw [List.mem_reverse, h2, hr.vertices], fun u v huv => ?_⟩
    obtain ⟨i, j, hij, hi, hj⟩ := h3 v u ((hr.adj v u).1 huv)
    have hi' := (List.getElem?_eq_some_iff.1 hi).1
    have hj' := (List.getElem?_eq_some_iff.1 hj).1
    refine ⟨l.length - 1 - j, l.length - 1 - i, by omega, ?_, ?_⟩
    · rw [List.getElem?_reverse (by omega), show l.length - 1 - (l.length - 1 - j) = j by omega, hj]
    · rw [List.getElem?_reverse (by omega), show l.length - 1 - (l.length - 1 - i) = i by omega, hi]
  have hl' := hr.loopFree.2 hl
  obtain ⟨r, h1, h2, _⟩ := C39_succeeds_iff_acyclic_partial g h hl
  obtain ⟨r', h1', h2', _⟩ := C39_succeeds_iff_acyclic_partial g' h' hl'
  refine ⟨r, r', h1, h1', by rw [Bool.eq_iff_iff, h2, h2', hr.acyclic], ?_, ?_⟩
  · rintro l rfl
    exact turn g g' hr l (C38_order_partial g h hl l h1)
  · rintro l rfl
    exact turn g' g hr.symm l (C38_order_partial g' h' hl' l h1')

theorem cycles_turned {g g' : DirectedGraph} (h : Built g) (h' : Built g') (hr : Reversed g g')
    (hc : RootReachable g' ∨ StronglyConnected g') {cs cs' : List Cycle} (h1 : Returns (CycleAlg.takeAll g) cs)
    (h2 : Returns (CycleAlg.takeAll g') cs') {l : List VertexId} (hl : ∃ c ∈ cs, c.vertices ~r l) : ∃ c ∈ cs', c.vertices ~r l.reverse := by
  obtain ⟨c, hcm, hrot⟩ := hl
  obtain ⟨x, a1, _, a3, _⟩ := C48_cycle_iter_sound g h
  cases a1.unique h1
  obtain ⟨hcy, _⟩ := a3 c hcm
  obtain ⟨y', d1, d2⟩ := C49_complete_partial g' h' hc
  cases d1.unique h2
  obtain ⟨d, hd, hrot'⟩ := d2 _ ((hr.isCycle _).2 hcy)
  exact ⟨d, hd, hrot'.trans ((Reversed.turned_rotated _).trans hrot.reverse)⟩

theorem cycles_turned_length {g g' : DirectedGraph} (h : Built g) (h' : Built g') (hr : Reversed g g')
    (hc : RootReachable g' ∨ StronglyConnected g') {cs cs' : List Cycle} (h1 : Returns (CycleAlg.takeAll g) cs)
    (h2 : Returns (CycleAlg.takeAll g') cs') : cs.length ≤ cs'.length := by
  classical
  obtain ⟨x, a1, a2, _, a4⟩ := C48_cycle_iter_sound g h
  cases a1.unique h1
  have key : ∀ c ∈ cs, ∃ d ∈ cs', d.vertices ~r c.vertices.reverse := fun c hcm => cycles_turned h h' hr hc h1 h2 ⟨c, hcm, List.IsRotated.refl _⟩
  choose! f hf1 hf2 using key
  have nd : (cs.map f).Nodup := by
    refine a2.map_on ?_
    intro c hcm d hd e
    have r1 := hf2 c hcm
    have r2 := hf2 d hd
    rw [e] at r1
    exact a4 c hcm d hd (List.isRotated_reverse_iff.1 (r1.symm.trans r2))
  have := List.Nodup.length_le_of_subset nd (l₂ := cs') fun d hd => by
    obtain ⟨c, hcm, rfl⟩ := List.mem_map.1 hd
    exact hf1 c hcm
  simpa using this

/-- C130 (partial), cycles: if the cycles of both graphs are listed completely (C49), they are the same cycles backwards, and equally many.
Missing: other graphs (`C130_counterexample`). -/
theorem C130_cycles_partial (g g' : DirectedGraph) (h : Built g) (h' : Built g') (hr : Reversed g g')
    (hc : (RootReachable g ∧ RootReachable g') ∨ StronglyConnected g) :
    ∃ cs cs', Returns (CycleAlg.takeAll g) cs ∧ Returns (CycleAlg.takeAll g') cs' ∧ cs.length = cs'.length ∧
      ∀ l, (∃ c ∈ cs, c.vertices ~r l) ↔ ∃ c ∈ cs', c.vertices ~r l.reverse := by
  obtain ⟨cs, h1, _⟩ := C48_cycle_iter_sound g h
  obtain ⟨cs', h1', _⟩ := C48_cycle_iter_sound g' h'
  have hg : RootReachable g ∨ StronglyConnected g := hc.imp_left And.left
  have hg' : RootReachable g' ∨ StronglyConnected g' := hc.imp And.right hr.strong.2
  refine ⟨cs, cs', h1, h1', le_antisymm (cycles_turned_length h h' hr hg' h1 h1') (cycles_turned_length h' h hr.symm hg h1' h1), fun l =>
    ⟨cycles_turned h h' hr hg' h1 h1', fun hl => ?_⟩⟩
  have := cycles_turned h' h hr.symm hg h1' h1 hl
  rwa [List.reverse_reverse] at this

/-- C130 (partial), `max_flow`: with the capacities of the turned edges and the ends in the other order, the reported value is the same if every
vertex other than the ends has at most one incoming edge, or every such vertex has at most one outgoing edge; and on every graph it is 0 exactly if
it was before. Missing: other graphs (`C130_counterexample`). -/
theorem C130_max_flow_partial (g g' : DirectedGraph) (h : Built g) (h' : Built g') (hr : Reversed g g')
    (cap cap' : Edge → UInt64) (hcap : ∀ u v, cap' ⟨v, u⟩ = cap ⟨u, v⟩) (s t : VertexId) (hst : s ≠ t) (n n' : Nat) (m m' : FlowMap)
    (hm : Returns (maxFlow g cap s t) (n, m)) (hm' : Returns (maxFlow g' cap' t s) (n', m')) :
    (n = 0 ↔ n' = 0) ∧
    ((∀ u u' v, v ≠ s → v ≠ t → Adj g u v → Adj g u' v → u = u') ∨ (∀ u v v', u ≠ s → u ≠ t → Adj g u v → Adj g u v' → v = v') →
      n = n') := by
  have hc : ∀ e, cap' (Reversed.edge e) = cap e := fun e => hcap _ _
  constructor
  · rw [C55_zero_partial g h cap s t hst n m hm, C55_zero_partial g' h' cap' _ _ hst.symm n' m' hm', hr.isMaxFlowValue h h' hc hst]
  · rintro (hin | hout)
    · have h1 := C55_single_entry_partial g h cap s t hst hin n m hm
      have h2 := C55_single_exit_partial g' h' cap' _ _ hst.symm (fun u v v' a b c d => hin v v' u b a ((hr.adj _ _).1 c) ((hr.adj _ _).1 d)) n' m' hm'
      exact maxFlowValue_unique h1 ((hr.isMaxFlowValue h h' hc hst _).1 h2)
    · have h1 := C55_single_exit_partial g h cap s t hst hout n m hm
      have h2 := C55_single_entry_partial g' h' cap' _ _ hst.symm (fun u v v' a b c d => hout v' u v b a ((hr.adj _ _).1 c) ((hr.adj _ _).1 d)) n' m' hm'
      exact maxFlowValue_unique h1 ((hr.isMaxFlowValue h h' hc hst _).1 h2)

/-- C130 is false for `topological_sort` (1→2 and a loop at 2), for the cycles of a graph (1→2, 2→3, 3→2: vertex 1 has no incoming edge, and no
vertex of the turned graph is without one), and for the value of `max_flow`. -/
theorem C130_counterexample :
    (∃ g g', Built g ∧ Built g' ∧ Reversed g g' ∧ Returns (topologicalSort g) (some [1]) ∧ Returns (topologicalSort g') none) ∧
    (∃ g g', Built g ∧ Built g' ∧ Reversed g g' ∧ Returns (CycleAlg.takeAll g) [⟨[2, 3]⟩] ∧ Returns (CycleAlg.takeAll g') []) ∧
    ∃ g g', Built g ∧ Built g' ∧ Reversed g g' ∧ (∃ m, Returns (maxFlow g (fun _ => 1) 1 6) (2, m)) ∧
      ∃ m, Returns (maxFlow g' (fun _ => 1) 6 1) (1, m) := by
  refine ⟨⟨_, _, graphOf_built _, graphOf_built _, exReversed [.AddEdge 1 2, .AddEdge 2 2], ?_, ?_⟩,
    ⟨_, _, graphOf_built _, graphOf_built _, exReversed [.AddVertex 1, .AddEdge 1 2, .AddEdge 2 3, .AddEdge 3 2], ?_, ?_⟩,
    _, _, graphOf_built _, graphOf_built _, exReversed [.AddEdge 2 5, .AddEdge 2 4, .AddEdge 5 6, .AddEdge 3 5, .AddEdge 4 6, .AddEdge 1 3, .AddEdge 1 2],
    flow_value (k := 40) (by decide +kernel), flow_value (k := 40) (by decide +kernel)⟩
  · exact Mono.returns (n := 10) (mono_sort _) (by decide)
  · exact Mono.returns (n := 10) (mono_sort _) (by decide)
  · exact Mono.returns (n := 10) (Mono.collect (mono_cycle_next _) _) (by decide)
  · exact Mono.returns (n := 10) (Mono.collect (mono_cycle_next _) _) (by decide)

/-! ### Worked cases -/

/-- The edges of `exLoop` turned round, in `C130_commands`, `C130_listings`, `C130_traversals`, `C130_short_path` and `C130_hamiltonian`. -/
example (H H' : ScoredHeap) := And.intro
  (C130_commands _ _ Built.new Built.new reversed_new exLoop)
  (And.intro (C130_listings _ _ (graphOf_built _) (graphOf_built _) (exReversed exLoop) 1)
    (And.intro (C130_traversals _ _ (graphOf_built _) (graphOf_built _) (exReversed exLoop) 0 3)
      (And.intro (C130_short_path H H' _ _ (graphOf_built _) (graphOf_built _) (exReversed exLoop) (by decide) 0 3)
        (C130_hamiltonian _ _ (graphOf_built _) (graphOf_built _) (exReversed exLoop)))))

/-- The turned commands are 1→0, 2→1, 3→2, 1→3. -/
example : exLoop.map (·.turn) = [.AddEdge 1 0, .AddEdge 2 1, .AddEdge 3 2, .AddEdge 1 3] := by decide

/-- `C130_weights` for `exLoop`, an edge weighing the id it comes from: from 0 to 3 the score is 0 + 1 + 2, and from 3 to 0 over the turned edges
it is the same. -/
example : bellmanFord (graphOf exLoop) (fun e => (e.src.id.toNat : Int)) 0 =
      .done (some [(0, ⟨⟨[0]⟩, 0⟩), (1, ⟨⟨[0, 1]⟩, 0⟩), (2, ⟨⟨[0, 1, 2]⟩, 1⟩), (3, ⟨⟨[0, 1, 2, 3]⟩, 3⟩)]) ∧
    (∃ sp, ∃ m, bellmanFord (graphOf (exLoop.map (·.turn))) (fun e => (e.dst.id.toNat : Int)) 3 = .done (some m) ∧ (0, sp) ∈ m ∧ sp.score = 3) := by
  have h : bellmanFord (graphOf exLoop) (fun e => (e.src.id.toNat : Int)) 0 =
      .done (some [(0, ⟨⟨[0]⟩, 0⟩), (1, ⟨⟨[0, 1]⟩, 0⟩), (2, ⟨⟨[0, 1, 2]⟩, 1⟩), (3, ⟨⟨[0, 1, 2, 3]⟩, 3⟩)]) := by decide
  have hs : SmallWeights (graphOf exLoop) (fun e => (e.src.id.toNat : Int)) := by
    intro e he
    exact (by decide : ∀ e ∈ (graphOf exLoop).edges, |(e.src.id.toNat : Int)| * (graphOf exLoop).vertexCount < 2 ^ 63 - 1) e (adj_graphOf.1 he)
  obtain ⟨m, hm⟩ : ∃ m, bellmanFord (graphOf (exLoop.map (·.turn))) (fun e => (e.dst.id.toNat : Int)) 3 = .done (some m) := ⟨_, by rfl⟩
  obtain ⟨sp, h1, h2⟩ := ((C130_weights _ _ (graphOf_built _) (graphOf_built _) (exReversed exLoop) _ (fun e => (e.dst.id.toNat : Int)) hs
    (fun _ _ => rfl) 0 3).1 _ m h hm 3).1 ⟨⟨⟨[0, 1, 2, 3]⟩, 3⟩, by decide, rfl⟩
  exact ⟨h, sp, m, hm, h1, h2⟩

/-- `C130_topological_sort_partial` for 1→2→3. -/
example := C130_topological_sort_partial _ _ (graphOf_built _) (graphOf_built _) (exReversed [.AddEdge 1 2, .AddEdge 2 3])
  (by
    intro v hv
    exact (by decide : ∀ e ∈ (graphOf [.AddEdge 1 2, .AddEdge 2 3]).edges, e.src ≠ e.dst) _ (adj_graphOf.1 hv) rfl)

/-- `C130_cycles_partial` for the strongly connected graph 1→2→1. -/
example := C130_cycles_partial _ _ (graphOf_built _) (graphOf_built _) (exReversed [.AddEdge 1 2, .AddEdge 2 1])
  (.inr (by
    intro u v hu hv
    have e : (graphOf [.AddEdge 1 2, .AddEdge 2 1]).vertices = [1, 2] := by decide
    have hu := mem_vertices.2 hu
    have hv := mem_vertices.2 hv
    rw [e] at hu hv
    have h1 : Adj (graphOf [.AddEdge 1 2, .AddEdge 2 1]) 1 2 := by unfold Adj; decide
    have h2 : Adj (graphOf [.AddEdge 1 2, .AddEdge 2 1]) 2 1 := by unfold Adj; decide
    simp only [List.mem_cons, List.not_mem_nil, or_false] at hu hv
    rcases hu with rfl | rfl <;> rcases hv with rfl | rfl
    · exact .refl
    · exact .single h1
    · exact .single h2
    · exact .refl))

/-- The network 1→2→4, 1→3→4 turned round in `C130_max_flow_partial`: both calls return 6. -/
example : ∃ m m', Returns (maxFlow (graphOf [.AddEdge 1 2, .AddEdge 2 4, .AddEdge 1 3, .AddEdge 3 4]) (fun _ => 3) 1 4) (6, m) ∧
    Returns (maxFlow (graphOf [.AddEdge 2 1, .AddEdge 4 2, .AddEdge 3 1, .AddEdge 4 3]) (fun _ => 3) 4 1) (6, m') := by
  obtain ⟨m, h⟩ := flow_value (g := graphOf [.AddEdge 1 2, .AddEdge 2 4, .AddEdge 1 3, .AddEdge 3 4]) (cap := fun _ => 3) (s := 1) (t := 4)
    (k := 30) (n := 6) (by decide)
  obtain ⟨m', h'⟩ := flow_value (g := graphOf [.AddEdge 2 1, .AddEdge 4 2, .AddEdge 3 1, .AddEdge 4 3]) (cap := fun _ => 3) (s := 4) (t := 1)
    (k := 30) (n := 6) (by decide)
  have := C130_max_flow_partial _ _ (graphOf_built _) (graphOf_built _)
    (exReversed [.AddEdge 1 2, .AddEdge 2 4, .AddEdge 1 3, .AddEdge 3 4]) _ _ (fun _ _ => rfl) 1 4 (by decide) 6 6 m m' h h'
  exact ⟨m, m', h, h'⟩

end GC
