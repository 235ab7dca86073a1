/-
Properties C120 and C121: how much work the searches do.
-/
import Verif.Proofs.Within
import Verif.Props.Search
import Verif.Props.Topo
namespace GC
open DirectedGraph Work

/-- C120: the iterators over vertices go round at most once for every vertex of the graph (and twice more, for a start that is not in the
graph and for the final `None`). -/
theorem C120_vertices (g : DirectedGraph) (h : Built g) (start : VertexId) :
    (∃ xs, ReturnsWithin (g.vertexCount + 2) (Prog.collect (DepthFirstIter.next g) (DepthFirstIter.from_ start)) xs) ∧
    ∃ xs, ReturnsWithin (g.vertexCount + 2) (Prog.collect (BreadthFirstIter.next g) (BreadthFirstIter.from_ start)) xs := by
  obtain ⟨xs, h1, h2, _, h3⟩ := dfs_drains h.wf start
  obtain ⟨ys, k1, k2, _, k3⟩ := bfs_drains h.wf start
  have h4 := (reach_length h.wf h2 fun v hv => (h3 v).1 hv).1
  have k4 := (reach_length h.wf k2 fun v hv => (k3 v).1 hv).1
  exact ⟨⟨xs, (collect_within (still_dfs g) h1).mono (by omega)⟩, ys, (collect_within (still_bfs g) k1).mono (by omega)⟩

/-- C120: so does the search of gc-short-path. (A graph with `2^63` vertices or more would overflow the score.) -/
theorem C120_short_path (H : ScoredHeap) (g : DirectedGraph) (h : Built g) (hsize : g.vertexCount < 2 ^ 63) (start end_ : VertexId) :
    ∃ r, ReturnsWithin (g.vertexCount + 2) (AStar.gcShortPath H g start end_) r := by
  have hv := vertexCount_eq g
  have hf := unit_scoresBy h.wf start (by rw [← hv]; exact hsize)
  clear hsize
  obtain ⟨s, xs, h1, h2, _, h4, h5, _⟩ := best_drains (H := H) h.wf hf
  have h6 := (reach_length h.wf h4 fun v hv => (h5 v).1 hv).1
  rw [List.length_map] at h6
  have h7 := (find_within (still_best g _) (AStar.endsAt end_) h2).mono (m := g.vertexCount + 2) (by omega)
  refine ⟨xs.find? (AStar.endsAt end_), ?_⟩
  unfold AStar.gcShortPath AStar.shortestPath
  rw [h1]
  exact ReturnsWithin.bind (fun _ _ => rfl) h7

/-- `C120_short_path` for five vertices: within seven steps. -/
example (H : ScoredHeap) : ∃ r, ReturnsWithin 7 (AStar.gcShortPath H exIterGraph 5 4) r :=
  C120_short_path H exIterGraph (Built.new.applyCommands _) (by decide) 5 4

/-- C120: and the topological sort. -/
theorem C120_topological_sort (g : DirectedGraph) (h : Built g) :
    ∃ r, ReturnsWithin (g.vertexCount + 1) (TopoSort.topologicalSort g) r := by
  obtain ⟨s, _, _, hr⟩ := TopoSort.topologicalSort_returns h.wf
  exact ⟨_, topo_within h.wf hr⟩

/-- C120: the iterators over paths go round once for every path without a repeated vertex, and once more. -/
theorem C120_paths (g : DirectedGraph) (h : Built g) (start : VertexId) :
    ∃ xs ys : List Path, xs.Nodup ∧ (∀ p, p ∈ xs ↔ SimplePathFrom g start p.vertices) ∧ ys.Perm xs ∧
      ReturnsWithin (xs.length + 1) (Prog.collect (DepthFirstPathIter.next g) (DepthFirstPathIter.from_ start)) xs ∧
      ReturnsWithin (xs.length + 1) (Prog.collect (BreadthFirstPathIter.next g) (BreadthFirstPathIter.from_ start)) ys := by
  obtain ⟨xs, h1, h2, h3⟩ := dfs_path_drains h.wf start
  obtain ⟨ys, k1, k2, _, k3⟩ := bfs_path_drains h.wf start
  have hp : ys.Perm xs := (List.perm_ext_iff_of_nodup k2 h2).2 fun p => (k3 p).trans (h3 p).symm
  exact ⟨xs, ys, h2, h3, hp, collect_within (still_dfs_path g) h1, hp.length_eq ▸ collect_within (still_bfs_path g) k1⟩

/-- C121: gc-csp goes round at most once for every walk that partial checking does not prune and, if there is an answer, that is not longer
than the answer, and once more. -/
theorem C121_csp (H : ScoredHeap) (g : DirectedGraph) (h : Built g) (start end_ : VertexId) (cs : List Constraint) (r : Option ScoredPath)
    (hr : Returns (AStar.gcCsp H g start end_ cs) r) (N : Nat)
    (hN : ∀ l : List ScoredPath, l.Nodup → (∀ x ∈ l, Unpruned g (AStar.sumScore AStar.oneWeightedEdge AStar.zeroHeuristic) cs start x ∧
      ∀ sp, r = some sp → x.path.vertices.length ≤ sp.path.vertices.length) → l.length ≤ N) :
    ReturnsWithin (N + 1) (AStar.gcCsp H g start end_ cs) r := by
  have hm := monotone_unit g start
  obtain ⟨it, h1, h2⟩ := constrained_inv hr
  obtain ⟨out, it', h3, h4, h5⟩ := find_inv ConstrainedBestFirstIter.mono_next h2
  have hscore : ∀ x : ScoredPath, Unpruned g (AStar.sumScore AStar.oneWeightedEdge AStar.zeroHeuristic) cs start x →
      x.score = (x.path.vertices.length : Int) - 1 := by
    intro x hx
    have h1 := hx.2.1
    rw [unit_score g _ hx.1.ne_nil] at h1
    split at h1
    · exact (Run.done.inj h1).symm
    · cases h1
  have hlen : out.length ≤ N := by
    rcases h5 with ⟨rfl, _⟩ | ⟨x, it'', rfl, _, h7⟩
    · have hi := cinv_run h.wf h1 h3
      exact hN out (List.nodup_append.1 hi.nodup).1 fun x hx => ⟨hi.node x (by simp [hx]), fun _ h => by cases h⟩
    · have hi := cinv_run h.wf h1 (h3.step h7)
      have ho := (sorted_run h.wf hm h1 (h3.step h7)).sorted
      refine hN out (List.nodup_append.1 (List.nodup_append.1 hi.nodup).1).1 fun y hy => ⟨hi.node y (by simp [hy]), fun sp e => ?_⟩
      obtain rfl : x = sp := by simpa using e
      have h8 := (List.pairwise_append.1 ho).2.2 y hy x (by simp)
      rw [hscore y (hi.node y (by simp [hy])), hscore x (hi.node x (by simp))] at h8
      omega
  have h6 := (find_within_run (still_constrained g _ cs) _ h3 h4 h5).mono (m := N + 1) (by omega)
  unfold AStar.gcCsp AStar.constrainedShortestPath
  rw [h1]
  exact ReturnsWithin.bind (fun _ _ => rfl) h6

/-- `C121_csp` for the graph with the edge 1→2: there are two walks from 1, so three rounds are enough. -/
example : ReturnsWithin 3 (AStar.gcCsp exHeap (graphOf [.AddEdge 1 2]) 1 2 []) (some ⟨⟨[1, 2]⟩, 1⟩) := by
  refine C121_csp exHeap _ (graphOf_built _) 1 2 [] _ (Mono.returns (n := 99) (mono_csp _ _ _ _ _) (by decide +kernel)) 2 fun l hl hm => ?_
  · refine (hl.subperm (l₂ := [⟨⟨[1]⟩, 0⟩, ⟨⟨[1, 2]⟩, 1⟩]) fun x hx => ?_).length_le
    obtain ⟨⟨⟨hw, hs⟩, hsc, _⟩, _⟩ := hm x hx
    have hadj : ∀ u v, Adj (graphOf [.AddEdge 1 2]) u v → u = 1 ∧ v = 2 := by
      intro u v h
      have h := adj_graphOf.1 h
      rw [show (graphOf [.AddEdge 1 2]).edges = [⟨1, 2⟩] by decide, List.mem_singleton] at h
      cases h
      exact ⟨rfl, rfl⟩
    obtain ⟨⟨vs⟩, sc⟩ := x
    rcases vs with _ | ⟨a, _ | ⟨b, _ | ⟨c, vs⟩⟩⟩
    · cases hs
    · cases hs
      rw [show AStar.sumScore AStar.oneWeightedEdge AStar.zeroHeuristic (graphOf [.AddEdge 1 2]) ⟨[1]⟩ = .done 0 by decide] at hsc
      cases hsc
      exact List.mem_cons_self
    · cases hs
      obtain ⟨_, rfl⟩ := hadj _ _ (List.isChain_cons_cons.1 hw).1
      rw [show AStar.sumScore AStar.oneWeightedEdge AStar.zeroHeuristic (graphOf [.AddEdge 1 2]) ⟨[1, 2]⟩ = .done 1 by decide] at hsc
      cases hsc
      exact List.mem_cons_of_mem _ List.mem_cons_self
    · obtain ⟨_, rfl⟩ := hadj _ _ (List.isChain_cons_cons.1 hw).1
      exact absurd (hadj _ _ (List.isChain_cons_cons.1 (List.isChain_cons_cons.1 hw).2).1).1 (by decide)

/-- C121: the maximum flow is found, or its overflow, within as many rounds as there are edges (every round but the last saturates one, so
the capacities do not matter) or paths without a repeated vertex from the start, and one more. -/
theorem C121_max_flow (g : DirectedGraph) (h : Built g) (capacity : Edge → UInt64) (start end_ : VertexId) (hne : start ≠ end_) :
    ∃ xs : List Path, xs.Nodup ∧ (∀ p, p ∈ xs ↔ SimplePathFrom g start p.vertices) ∧
      ((∃ r, ReturnsWithin (max g.edges.length xs.length + 1) (MaxFlow.maxFlow g capacity start end_) r) ∨
        ∀ m, max g.edges.length xs.length + 1 ≤ m → MaxFlow.maxFlow g capacity start end_ m = .panicked) := by
  obtain ⟨xs, _, h2, h3⟩ := dfs_path_drains h.wf start
  have hs := maxFlow_stops h.wf capacity hne h2 h3
  refine ⟨xs, h2, h3, ?_⟩
  rcases MaxFlow.maxFlow_spec h.wf capacity hne with ⟨r, hr, _⟩ | ⟨hp, _⟩
  · exact .inl ⟨r, hs.returns (mono_maxFlow _ _ _ _) hr⟩
  · exact .inr (hs.panics (mono_maxFlow _ _ _ _) hp)

/-- `C121_max_flow` for the network 1→2→4, 1→3→4. -/
example := C121_max_flow (graphOf [.AddEdge 1 2, .AddEdge 2 4, .AddEdge 1 3, .AddEdge 3 4]) (graphOf_built _) (fun _ => 3) 1 4 (by decide)

/-- C121: gc-cycle ends within as many rounds as there are walks whose vertices differ except perhaps the last and which begin with a vertex
without inbound edges (or, if there is none, with the first vertex), and one more. -/
theorem C121_cycle (g : DirectedGraph) (h : Built g) :
    ∃ ws : List (List VertexId), ws.Nodup ∧
      (∀ l, l ∈ ws ↔ ∃ s, (IsRoot g s ∨ ((∀ r, ¬ IsRoot g r) ∧ g.headOption = some s)) ∧ WalkFrom g s l ∧ l.dropLast.Nodup) ∧
      ∀ (a : GcCycle.Actions) (args : Args.CycleArgs), ∃ r, ReturnsWithin (ws.length + 1) (GcCycle.main g a args) r := by
  obtain ⟨ws, h1, h2, cs, h3, h4⟩ := cycleIter_within h.wf
  have hf : ∀ k, DrainsWithin (ws.length + 1) (GcCycle.next g k) (CycleIter.cycleIter g) (cs.filter fun c => GcCycle.check c k) :=
    fun k => h3.filter _ h4
  have hl : ∀ k, (cs.filter fun c => GcCycle.check c k).length + 1 ≤ ws.length + 1 := fun k => by
    have := List.length_filter_le (fun c => GcCycle.check c k) cs
    omega
  refine ⟨ws, h1, fun l => ?_, ?_⟩
  · simp only [h2, mem_findStartingEdges h.wf]
  · intro a args
    have hb : ∀ {α β : Type} {p : Prog α} {f : α → β} {x : α}, ReturnsWithin (ws.length + 1) p x →
        ∃ r, ReturnsWithin (ws.length + 1) (Prog.bind p fun y => Prog.ret (f y)) r := fun hp => ⟨_, ReturnsWithin.bind hp fun _ _ => rfl⟩
    unfold GcCycle.main
    dsimp only
    split
    · exact hb (h3.consume _ h4)
    · split
      · exact hb (h3.filter _ h4).nextOnly
      · split
        · exact hb ((hf _).consume _ (hl _))
        · split
          · exact hb ((hf _).consume _ (hl _))
          · split
            · exact hb ((hf _).consume _ (hl _))
            · split
              · exact hb ((hf _).takeN _)
              · split
                · exact hb ((hf _).collect (hl _))
                · exact ⟨_, fun _ _ => rfl⟩

/-- C121: the search for hamiltonian paths ends within as many rounds as there are paths without a repeated vertex, and three more. -/
theorem C121_hamiltonian (g : DirectedGraph) (h : Built g) :
    ∃ xs : List Path, xs.Nodup ∧ (∀ p, p ∈ xs ↔ ∃ v, g.containsVertex v = true ∧ SimplePathFrom g v p.vertices) ∧
      ∃ r b, ReturnsWithin (xs.length + 3) (Hamiltonian.firstPath g) r ∧ ReturnsWithin (xs.length + 3) (Hamiltonian.isHamiltonian g) b := by
  obtain ⟨xs, h1, h2, h3⟩ := hamiltonian_within h.wf
  refine ⟨xs, h1, h2, (xs.filter fun p => p.size == g.vertexCount).head?, ?_⟩
  unfold Hamiltonian.isHamiltonian
  split
  · exact ⟨true, h3.nextOnly, fun _ _ => rfl⟩
  · exact ⟨_, h3.nextOnly, ReturnsWithin.bind h3.nextOnly fun _ _ => rfl⟩

/-- The bound is met, and one round less than there are vertices is not enough. -/
example : exIterGraph.vertexCount = 5 ∧ Prog.collect (DepthFirstIter.next exIterGraph) (DepthFirstIter.from_ 5) 7 = .done [5, 1, 3, 4, 2] ∧
    Prog.collect (DepthFirstIter.next exIterGraph) (DepthFirstIter.from_ 5) 4 = .running ∧
    AStar.gcShortPath exHeap exIterGraph 5 4 7 = .done (some ⟨⟨[5, 1, 2, 4]⟩, 3⟩) := by decide +kernel

/-- The same for the other searches, on a diamond: from 1 there are five paths without a repeated vertex, and four edges. -/
example : let g := GraphCommand.applyCommands (commands 1) .new
    g.edges.length = 4 ∧ (MaxFlow.maxFlow g (fun _ => 1000) 1 4 6 = .done (2000, [(⟨1, 2⟩, (1000, 1000)), (⟨1, 3⟩, (1000, 1000)),
      (⟨2, 4⟩, (1000, 1000)), (⟨3, 4⟩, (1000, 1000))])) ∧ MaxFlow.maxFlow g (fun _ => 1000) 1 4 5 = .running ∧
    CycleAlg.first g 6 = .done none ∧ CycleAlg.first g 5 = .running ∧
    (∃ r, AStar.gcCsp exHeap g 1 4 [] 6 = .done (some r)) ∧ Hamiltonian.isHamiltonian g 14 = .done false := by
  refine ⟨?_, ?_, ?_, ?_, ?_, ⟨⟨⟨[1, 2, 4]⟩, 2⟩, ?_⟩, ?_⟩ <;> decide +kernel

/-- Chains of diamonds of any length can be made with the commands of the command line tools. -/
theorem C120_diamonds (n : Nat) (hn : n < 2 ^ 60) : ∃ g, Built g ∧ Diamonds n g ∧ g.vertexCount = 3 * n + 1 :=
  ⟨_, Built.new.applyCommands _, diamonds_commands n, (diamonds_commands n).vertexCount (Built.new.applyCommands _).wf hn⟩

/-- C120 is false of gc-csp: even without any constraint, on a chain of `n` diamonds its search for a shortest path goes round more than
`2 ^ n` times, where gc-short-path finds one in `3 * n + 3` rounds. -/
theorem C120_counterexample_csp (H : ScoredHeap) (n : Nat) (h0 : 0 < n) (hn : n < 2 ^ 60) (g : DirectedGraph) (h : Built g) (hd : Diamonds n g) :
    Needs (2 ^ n) (AStar.gcCsp H g (vertex 1) (vertex (3 * n + 1)) []) ∧
    ∃ r, ReturnsWithin (3 * n + 3) (AStar.gcShortPath H g (vertex 1) (vertex (3 * n + 1))) r := by
  have hv := hd.vertexCount h.wf hn
  refine ⟨csp_needs H h.wf hd hn h0, ?_⟩
  have := C120_short_path H g h (by omega) (vertex 1) (vertex (3 * n + 1))
  rwa [hv] at this

/-- C120 is false of the maximum flow: on the same graphs, from the first to the last vertex and with any capacities. -/
theorem C120_counterexample_max_flow (n : Nat) (h0 : 0 < n) (hn : n < 2 ^ 60) (g : DirectedGraph) (h : Built g) (hd : Diamonds n g)
    (capacity : Edge → UInt64) : Needs (2 ^ n) (MaxFlow.maxFlow g capacity (vertex 1) (vertex (3 * n + 1))) :=
  Needs.loop (Needs.bind (flow_needs h.wf hd hn h0 _) _)

/-- C120 is false of gc-cycle and of the functions on cycles: on the same graphs, which have no cycle and which the topological sort
recognizes in `3 * n + 2` rounds. -/
theorem C120_counterexample_cycle (n : Nat) (h0 : 0 < n) (hn : n < 2 ^ 60) (g : DirectedGraph) (h : Built g) (hd : Diamonds n g) :
    (∃ l, ReturnsWithin (3 * n + 2) (TopoSort.topologicalSort g) (some l)) ∧ Needs (2 ^ n) (CycleAlg.first g) ∧ Needs (2 ^ n) (CycleAlg.takeAll g) ∧
    ∀ (a : GcCycle.Actions) (args : Args.CycleArgs), (a.girth = true ∨ a.hamiltonian = true ∨ a.count = true ∨ a.shortest = true ∨
      a.longest = true ∨ a.head = true ∨ (a.takeN = none ∧ a.all = true)) → Needs (2 ^ n) (GcCycle.main g a args) := by
  have hc := cycles_need h.wf hd hn h0
  have hf := fun cs => Needs.filterNext (fun c => GcCycle.check c cs) hc
  refine ⟨?_, Needs.bind hc _, Needs.collect hc, ?_⟩
  · have ha : Acyclic g := by
      intro v hv
      have key : ∀ u, Relation.TransGen (Adj g) v u → v.id < u.id := by
        intro u hu
        induction hu with
        | single hu => exact hd.rising hn _ _ hu
        | tail _ hu ih => exact UInt64.lt_trans ih (hd.rising hn _ _ hu)
      exact UInt64.lt_irrefl _ (key v hv)
    obtain ⟨l, hr, _⟩ := C39_acyclic_succeeds g h ha
    exact ⟨l, (topo_within h.wf hr).mono (by rw [hd.vertexCount h.wf hn])⟩
  · intro a args hact
    unfold GcCycle.main
    dsimp only
    by_cases h1 : a.girth = true
    · rw [if_pos h1]
      exact Needs.bind (Needs.bind (Needs.collect hc) _) _
    rw [if_neg h1]
    by_cases h2 : a.hamiltonian = true
    · rw [if_pos h2]
      exact Needs.bind (Needs.bind (Needs.filterNext _ hc) _) _
    rw [if_neg h2]
    by_cases h3 : a.count = true
    · rw [if_pos h3]
      exact Needs.bind (Needs.bind (Needs.collect (hf _)) _) _
    rw [if_neg h3]
    by_cases h4 : a.shortest = true
    · rw [if_pos h4]
      exact Needs.bind (Needs.bind (Needs.collect (hf _)) _) _
    rw [if_neg h4]
    by_cases h5 : a.longest = true
    · rw [if_pos h5]
      exact Needs.bind (Needs.bind (Needs.collect (hf _)) _) _
    rw [if_neg h5]
    by_cases h6 : a.head = true
    · have : GcCycle.takeN a = some 1 := by unfold GcCycle.takeN; rw [if_pos h6]
      rw [this]
      exact Needs.bind (Needs.bind (hf _) _) _
    · have h7 : a.takeN = none ∧ a.all = true := by simpa [h1, h2, h3, h4, h5, h6] using hact
      have : GcCycle.takeN a = none := by unfold GcCycle.takeN; rw [if_neg h6, h7.1]; rfl
      rw [this]
      dsimp only
      rw [if_pos h7.2]
      exact Needs.bind (Needs.collect (hf _)) _

/-- C120 is false of the search for hamiltonian paths: on the same graphs. -/
theorem C120_counterexample_hamiltonian (n : Nat) (h0 : 0 < n) (hn : n < 2 ^ 60) (g : DirectedGraph) (h : Built g) (hd : Diamonds n g) :
    Needs (2 ^ n) (Hamiltonian.firstPath g) ∧ Needs (2 ^ n) (Hamiltonian.isHamiltonian g) := by
  have h1 : Needs (2 ^ n) (Hamiltonian.firstPath g) := Needs.bind (hamiltonian_needs h.wf hd hn h0) _
  refine ⟨h1, ?_⟩
  unfold Hamiltonian.isHamiltonian
  rw [if_neg]
  · exact Needs.bind h1 _
  · have := hd.vertexCount h.wf hn
    simp [DirectedGraph.isEmpty, this]

/-- Three diamonds: ten vertices, and the searches are not finished after eight rounds. -/
example : let g := GraphCommand.applyCommands (commands 3) .new
    Diamonds 3 g ∧ g.vertexCount = 10 ∧ g.edgeCount = 12 ∧ AStar.gcCsp exHeap g 1 10 [] 8 = .running ∧
    (∃ r, AStar.gcShortPath exHeap g 1 10 12 = .done (some r)) ∧ CycleAlg.first g 8 = .running ∧ Hamiltonian.isHamiltonian g 8 = .running :=
  ⟨diamonds_commands 3, by decide +kernel, by decide +kernel, by decide +kernel, ⟨⟨⟨[1, 2, 4, 5, 7, 8, 10]⟩, 6⟩, by decide +kernel⟩,
    by decide +kernel, by decide +kernel⟩

end GC
