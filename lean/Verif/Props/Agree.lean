/-
C138: the different queries agree about the same graph.
-/
import Verif.Proofs.Agree
import Verif.Props.SameFrom
namespace GC
open DirectedGraph TopoSort

/-- What can be reached from `s` is the same for all queries: a vertex is visited by the depth-first iteration exactly if it is by the breadth-first
one, if a path of the path iterators ends there, if gc-short-path finds a path to it, and if gc-csp without constraints does. -/
theorem C138_reachable (H : ScoredHeap) (g : DirectedGraph) (h : Built g) (hsize : g.vertexCount < 2 ^ 63 - 1) (s : VertexId) :
    ∃ dv bv dp bp,
      Returns (Prog.collect (DepthFirstIter.next g) (DepthFirstIter.from_ s)) dv ∧
      Returns (Prog.collect (BreadthFirstIter.next g) (BreadthFirstIter.from_ s)) bv ∧
      Returns (Prog.collect (DepthFirstPathIter.next g) (DepthFirstPathIter.from_ s)) dp ∧
      Returns (Prog.collect (BreadthFirstPathIter.next g) (BreadthFirstPathIter.from_ s)) bp ∧
      ∀ t, (t ∈ dv ↔ t ∈ bv) ∧
        (t ∈ dv ↔ ∃ p ∈ dp, p.vertices.getLast? = some t) ∧
        (t ∈ dv ↔ ∃ p ∈ bp, p.vertices.getLast? = some t) ∧
        (t ∈ dv ↔ ∃ k, Cost H g s t (some k)) ∧
        (t ∈ dv ↔ ∃ k, FindsWalk H g s t [] k) := by
  obtain ⟨dv, a1, _, _, a2⟩ := C24_dfs_exact g h s
  obtain ⟨bv, b1, _, b2, _⟩ := C25_bfs_exact g h s
  obtain ⟨dp, c1, _, c2⟩ := C27_dfs_paths g h s
  obtain ⟨bp, d1, _, d2, _⟩ := C28_bfs_paths g h s
  refine ⟨dv, bv, dp, bp, a1, b1, c1, d1, fun t => ?_⟩
  have hp : ∀ out : List Path, (∀ p : Path, p ∈ out ↔ SimplePathFrom g s p.vertices) →
      (Reach g s t ↔ ∃ p ∈ out, p.vertices.getLast? = some t) := by
    intro out ho
    constructor
    · intro hr
      obtain ⟨l, h1, h2, _⟩ := nodup_of_best h (by omega) hr
      exact ⟨⟨l⟩, (ho _).2 h1, h2.2.2⟩
    · rintro ⟨p, h1, h2⟩
      obtain ⟨h3, h4, _⟩ := (ho p).1 h1
      exact WalkFromTo.reach ⟨h3, h4, h2⟩
  refine ⟨by rw [a2, b2], by rw [a2]; exact hp dp c2, by rw [a2]; exact hp bp d2, ?_, ?_⟩
  · rw [a2]
    constructor
    · intro hr
      obtain ⟨l, _, h2, _, h4⟩ := nodup_of_best h (by omega) hr
      exact ⟨_, (cost_iff h (by omega)).2 ⟨l, h2, rfl, h4⟩⟩
    · rintro ⟨k, hk⟩
      obtain ⟨l, h1, _⟩ := (cost_iff h (by omega)).1 hk
      exact h1.reach
  · rw [a2]
    constructor
    · intro hr
      obtain ⟨l, _, h2, h3, h4⟩ := nodup_of_best h (by omega) hr
      exact ⟨_, found_of_best h (k := (l.length : Int) - 1) (by omega) ⟨l, ⟨h2, by simp [Meets]⟩, rfl, fun l' hl' => h4 l' hl'.1⟩⟩
    · rintro ⟨k, hk⟩
      obtain ⟨l, h1, _⟩ := best_of_found h hk
      exact h1.1.reach

/-- The number of edges of the path of gc-short-path is the smallest one of the paths that the path iterators list. -/
theorem C138_distance (H : ScoredHeap) (g : DirectedGraph) (h : Built g) (hsize : g.vertexCount < 2 ^ 63) (s t : VertexId) (k : Nat) :
    ∃ dp bp,
      Returns (Prog.collect (DepthFirstPathIter.next g) (DepthFirstPathIter.from_ s)) dp ∧
      Returns (Prog.collect (BreadthFirstPathIter.next g) (BreadthFirstPathIter.from_ s)) bp ∧
      ∀ out, out = dp ∨ out = bp →
        (Cost H g s t (some k) ↔
          (∃ p ∈ out, p.vertices.getLast? = some t ∧ p.vertices.length = k + 1) ∧
          ∀ p ∈ out, p.vertices.getLast? = some t → k + 1 ≤ p.vertices.length) := by
  obtain ⟨dp, c1, _, c2⟩ := C27_dfs_paths g h s
  obtain ⟨bp, d1, _, d2, _⟩ := C28_bfs_paths g h s
  refine ⟨dp, bp, c1, d1, fun out ho => ?_⟩
  have hm : ∀ p : Path, p ∈ out ↔ SimplePathFrom g s p.vertices := by
    rcases ho with rfl | rfl
    · exact c2
    · exact d2
  rw [cost_iff h hsize]
  constructor
  · rintro ⟨l, h1, h2, h3⟩
    obtain ⟨l', k1, k2, _, k4⟩ := nodup_of_best h hsize h1.reach
    have e : l.length = l'.length := Nat.le_antisymm (h3 _ k2) (k4 _ h1)
    have hpos : 0 < l.length := List.length_pos_iff.2 h1.ne_nil
    refine ⟨⟨⟨l'⟩, (hm _).2 k1, k2.2.2, by simp only; omega⟩, fun p hp ht => ?_⟩
    obtain ⟨q1, q2, _⟩ := (hm p).1 hp
    have := h3 _ ⟨q1, q2, ht⟩
    omega
  · rintro ⟨⟨p, h1, h2, h3⟩, h4⟩
    obtain ⟨q1, q2, _⟩ := (hm p).1 h1
    refine ⟨p.vertices, ⟨q1, q2, h2⟩, by omega, fun l hl => ?_⟩
    obtain ⟨l', k1, k2, _, k4⟩ := nodup_of_best h hsize hl.reach
    have := h4 ⟨l'⟩ ((hm _).2 k1) k2.2.2
    have := k4 _ hl
    simp only at *
    omega

/-- If there is no topological order, gc-short-path finds a way back along some edge, and gc-csp finds a walk with a cycle from some vertex to itself.
In a graph without self-loops the converse holds too. -/
theorem C138_topological (H : ScoredHeap) (g : DirectedGraph) (h : Built g) (hsize : g.vertexCount < 2 ^ 63 - 1) :
    ∃ r, Returns (topologicalSort g) r ∧
      (r = none → (∃ u v k, Adj g u v ∧ Cost H g v u (some k)) ∧ ∃ v k, FindsWalk H g v v [.ContainsCycle] k) ∧
      (LoopFree g → ∀ u v k, Adj g u v → Cost H g v u (some k) → r = none) ∧
      (LoopFree g → ∀ v k, FindsWalk H g v v [.ContainsCycle] k → r = none) := by
  obtain ⟨r, hr, hi⟩ := C39_exact g h
  have hnone : LoopFree g → ¬ Acyclic g → r = none := by
    intro hl hc
    cases r with
    | none => rfl
    | some x =>
      rcases hi.1 rfl with ha | ⟨u, hu⟩
      · exact absurd ha hc
      · exact absurd hu.1 (hl u)
  refine ⟨r, hr, ?_, ?_, ?_⟩
  · rintro rfl
    have hc : ¬ Acyclic g := fun ha => by simpa using hi.2 (.inl ha)
    unfold Acyclic at hc
    push Not at hc
    obtain ⟨v, hv⟩ := hc
    obtain ⟨w, h1, h2⟩ := Relation.TransGen.head'_iff.1 hv
    obtain ⟨l, k1, k2, k3, k4⟩ := nodup_of_best h (by omega) h2
    refine ⟨⟨v, w, _, h1, (cost_iff h (by omega)).2 ⟨l, k2, rfl, k4⟩⟩, v, ?_⟩
    have hw : WalkFromTo g v v (v :: l) := k2.cons h1
    have hrep : Meets [.ContainsCycle] (v :: l) := by
      intro c hc
      rw [List.mem_singleton] at hc
      subst hc
      refine repeats_iff.2 fun hn => ?_
      exact (List.nodup_cons.1 hn).1 (List.mem_of_getLast? k2.2.2)
    obtain ⟨k, hk, hle⟩ := Best.exists (P := fun l => WalkFromTo g v v l ∧ Meets [.ContainsCycle] l) ⟨hw, hrep⟩
    have hpos : 0 < g.vertexCount := by
      rw [Work.vertexCount_eq]
      exact List.length_pos_of_mem (h.wf.adj_vertex h1).1
    refine ⟨k, found_of_best h ?_ hk⟩
    rw [List.length_cons] at hle
    omega
  · intro hl u v k ha hk
    obtain ⟨l, h1, _⟩ := (cost_iff h (by omega)).1 hk
    exact hnone hl fun hac => hac u (Relation.TransGen.head' ha h1.reach)
  · intro hl v k hk
    obtain ⟨l, ⟨h1, h2⟩, _⟩ := best_of_found h hk
    refine hnone hl fun hac => ?_
    have hn := repeats_iff.1 (h2 .ContainsCycle (by simp))
    obtain ⟨m, rfl⟩ := List.head?_eq_some_iff.1 h1.2.1
    cases m with
    | nil => simp at hn
    | cons w m =>
      have hc := List.isChain_cons_cons.1 h1.1
      refine hac v (Relation.TransGen.head' hc.1 (WalkFromTo.reach (l := w :: m) ⟨hc.2, rfl, ?_⟩))
      have := h1.2.2
      rwa [List.getLast?_cons_cons] at this

/-- The girth that gc-cycle prints is one more than the smallest number of edges of a way back along an edge, found by gc-short-path, if every vertex can
be reached from one without incoming edge or if the graph is strongly connected (for other graphs see `C49_counterexample`). -/
theorem C138_girth (H : ScoredHeap) (g : DirectedGraph) (h : Built g) (hsize : g.vertexCount < 2 ^ 63) (hc : RootReachable g ∨ StronglyConnected g) :
    ∃ r, Returns (CycleAlg.girth g) r ∧ (r = none ↔ ∀ u v, Adj g u v → Cost H g v u none) ∧
      ∀ n, r = some n → (∃ u v k, Adj g u v ∧ Cost H g v u (some k) ∧ (n : Int) = k + 1) ∧
        ∀ u v k, Adj g u v → Cost H g v u (some k) → (n : Int) ≤ k + 1 := by
  obtain ⟨r, hr, h1, h2⟩ := C50_girth_of_graph g h hc
  refine ⟨r, hr, h1.trans ⟨?_, ?_⟩, fun n hn => ?_⟩
  · intro hno u v ha
    obtain ⟨x, k1, k2, _⟩ := C33_short_path_optimal H g h hsize v u
    have hx : x = none := k2.2 fun hrch => by
      obtain ⟨l, m1, m2, _⟩ := nodup_of_best h hsize hrch
      exact hno l (isCycle_iff.2 ⟨v, u, m2, m1.2.2, ha⟩)
    exact ⟨x, k1, by rw [hx]; rfl⟩
  · intro hall l hl
    obtain ⟨v, u, k1, _, k3⟩ := isCycle_iff.1 hl
    exact (cost_spec h hsize (hall u v k3)).1.1 rfl k1.reach
  · obtain ⟨⟨l, k1, k2⟩, k3⟩ := h2 n hn
    have hle : ∀ u v k, Adj g u v → Cost H g v u (some k) → (n : Int) ≤ k + 1 := by
      intro u v k ha hk
      obtain ⟨m, q1, q2, q3⟩ := (cost_iff h hsize).1 hk
      obtain ⟨m', p1, p2, _, p4⟩ := nodup_of_best h hsize q1.reach
      have := k3 m' (isCycle_iff.2 ⟨v, u, p2, p1.2.2, ha⟩)
      have := p4 _ q1
      omega
    refine ⟨?_, hle⟩
    obtain ⟨v, u, p1, p2, p3⟩ := isCycle_iff.1 k1
    obtain ⟨m, q1, q2, _, q4⟩ := nodup_of_best h hsize p1.reach
    have hk : Cost H g v u (some ((m.length : Int) - 1)) := (cost_iff h hsize).2 ⟨m, q2, rfl, q4⟩
    have a1 := hle u v _ p3 hk
    have a2 := q4 _ p1
    exact ⟨u, v, _, p3, hk, by omega⟩

/-- There is a Hamiltonian path exactly if gc-csp, for some vertex of the graph as start and some end, finds a path without repetition with as many
vertices as the graph has. -/
theorem C138_hamiltonian (H : ScoredHeap) (g : DirectedGraph) (h : Built g) (hsize : g.vertexCount < 2 ^ 63) :
    ∃ r, Returns (Hamiltonian.firstPath g) r ∧
      (r.isSome = true ↔ ∃ s t k, g.containsVertex s = true ∧ FindsWalk H g s t [.Not .ContainsCycle, .MinLength g.vertexCount] k) := by
  obtain ⟨r, hr, h1, h2⟩ := C47_first_path g h
  refine ⟨r, hr, ?_, ?_⟩
  · intro hs
    obtain ⟨p, rfl⟩ := Option.isSome_iff_exists.1 hs
    obtain ⟨hne, hc, hn, hall⟩ := h1 p rfl
    obtain ⟨l⟩ := p
    simp only at hne hc hn hall
    have hlen : l.length = g.vertexCount :=
      (covers_iff h.wf hn fun v hv => mem_vertices.2 ((hall v).1 hv)).2 fun v hv => (hall v).2 hv
    obtain ⟨s, m, rfl⟩ := List.exists_cons_of_ne_nil hne
    have hw : WalkFromTo g s ((s :: m).getLast hne) (s :: m) := ⟨hc, rfl, List.getLast?_eq_some_getLast hne⟩
    refine ⟨s, _, _, (hall s).1 (by simp), found_of_best h (k := ((s :: m).length : Int) - 1) (by omega) ⟨_, ⟨hw, ?_⟩, rfl, ?_⟩⟩
    · intro c hc
      simp only [List.mem_cons, List.not_mem_nil, or_false] at hc
      rcases hc with rfl | rfl
      · exact fun hr => repeats_iff.1 hr hn
      · exact hlen.ge
    · intro l' hl'
      have := hl'.2 (.MinLength g.vertexCount) (by simp)
      unfold Satisfies at this
      simp only at this
      omega
  · rintro ⟨s, t, k, hs, hk⟩
    obtain ⟨l, ⟨k1, k2⟩, _⟩ := best_of_found h hk
    have hn : l.Nodup := by
      have := k2 (.Not .ContainsCycle) (by simp)
      unfold Satisfies at this
      by_contra hcon
      exact this (repeats_iff.2 hcon)
    have hl : g.vertexCount ≤ l.length := k2 (.MinLength g.vertexCount) (by simp)
    have hsub : ∀ v ∈ l, v ∈ g.vertices := by
      intro v hv
      rcases Relation.ReflTransGen.cases_tail (k1.mem_reach hv) with e | ⟨x, _, hx⟩
      · rw [e] at *; exact mem_vertices.2 hs
      · exact (h.wf.adj_vertex hx).2
    have hle := (List.subperm_of_subset hn hsub).length_le
    rw [← Work.vertexCount_eq] at hle
    cases r with
    | some p => rfl
    | none =>
      exact absurd ⟨k1.1, hn, fun v => ⟨fun hv => mem_vertices.1 (hsub v hv), (covers_iff h.wf hn hsub).1 (by omega) v⟩⟩ (h2.1 rfl l k1.ne_nil)

/-! ### Examples -/

-- C138_reachable: from 1 one gets to 3 and not to 5, for all queries.
example : ¬ ∃ k, Cost exHeap exIterGraph 1 5 (some k) := by
  obtain ⟨dv, _, _, _, h1, _, _, _, h2⟩ := C138_reachable exHeap exIterGraph exIterGraph_built (by decide) 1
  obtain ⟨dv', h3, _, _, h4⟩ := C24_dfs_exact exIterGraph exIterGraph_built 1
  cases h1.unique h3
  rw [← (h2 5).2.2.2.1, h4]
  exact fun hr => absurd (exIterGraph_reach hr) (by decide)
example : ∃ k, FindsWalk exHeap exIterGraph 1 3 [] k := by
  obtain ⟨dv, _, _, _, h1, _, _, _, h2⟩ := C138_reachable exHeap exIterGraph exIterGraph_built (by decide) 1
  obtain ⟨dv', h3, _, _, h4⟩ := C24_dfs_exact exIterGraph exIterGraph_built 1
  cases h1.unique h3
  rw [← (h2 3).2.2.2.2, h4]
  exact .single (by unfold Adj; decide)

-- C138_distance: from 5 to 4 there are three edges, and a listed path with four vertices.
theorem exIterGraph_cost : Cost exHeap exIterGraph 5 4 (some 3) :=
  (C136_no_constraints exHeap exHeap exIterGraph exIterGraph_built (by decide) 5 4 3 (by decide)).1 (exFound (p := [5, 1, 2, 4]) 60 (by decide +kernel))
example : ∃ bp, Returns (Prog.collect (BreadthFirstPathIter.next exIterGraph) (BreadthFirstPathIter.from_ 5)) bp ∧
    (∃ p ∈ bp, p.vertices.getLast? = some 4 ∧ p.vertices.length = 4) ∧ ∀ p ∈ bp, p.vertices.getLast? = some 4 → 4 ≤ p.vertices.length := by
  obtain ⟨_, bp, _, h1, h2⟩ := C138_distance exHeap exIterGraph exIterGraph_built (by decide) 5 4 3
  exact ⟨bp, h1, (h2 bp (.inr rfl)).1 exIterGraph_cost⟩

-- C138_topological: the edge 4 → 1 has a way back, hence there is no topological order.
theorem exIterGraph_back : Cost exHeap exIterGraph 1 4 (some 2) :=
  (C136_no_constraints exHeap exHeap exIterGraph exIterGraph_built (by decide) 1 4 2 (by decide)).1 (exFound (p := [1, 2, 4]) 60 (by decide +kernel))
theorem exIterGraph_loopFree : LoopFree exIterGraph := by
  intro v hv
  have hall : ∀ e ∈ exIterGraph.edges, e.src ≠ e.dst := by decide
  exact hall _ (exIterGraph_built.wf.mem_edges.2 hv) rfl
example : Returns (topologicalSort exIterGraph) none := by
  obtain ⟨r, h1, _, h2, _⟩ := C138_topological exHeap exIterGraph exIterGraph_built (by decide)
  cases h2 exIterGraph_loopFree 4 1 2 (by unfold Adj; decide) exIterGraph_back
  exact h1

-- C138_girth: all vertices can be reached from 5; the shortest cycles have three vertices.
theorem exIterGraph_rootReachable : RootReachable exIterGraph := by
  intro v hv
  have hv := mem_vertices.2 hv
  have e : exIterGraph.vertices = [1, 2, 3, 4, 5] := by decide
  have a1 : Reach exIterGraph 5 1 := .single (by unfold Adj; decide)
  have a2 : Reach exIterGraph 5 2 := a1.tail (by unfold Adj; decide)
  refine ⟨5, ⟨by decide, fun u hu => ?_⟩, ?_⟩
  · have hall : ∀ e ∈ exIterGraph.edges, e.dst ≠ 5 := by decide
    exact hall _ (exIterGraph_built.wf.mem_edges.2 hu) rfl
  · rw [e] at hv
    simp only [List.mem_cons, List.not_mem_nil, or_false] at hv
    rcases hv with rfl | rfl | rfl | rfl | rfl
    · exact a1
    · exact a2
    · exact a1.tail (by unfold Adj; decide)
    · exact a2.tail (by unfold Adj; decide)
    · exact .refl
example : ∃ n, Returns (CycleAlg.girth exIterGraph) (some n) ∧ n ≤ 3 := by
  obtain ⟨r, h1, h2, h3⟩ := C138_girth exHeap exIterGraph exIterGraph_built (by decide) (.inl exIterGraph_rootReachable)
  cases r with
  | none =>
    have := cost_spec exIterGraph_built (by decide) (h2.1 rfl 4 1 (by unfold Adj; decide))
    exact absurd ((cost_iff exIterGraph_built (by decide)).1 exIterGraph_back).choose_spec.1.reach (this.1.1 rfl)
  | some n =>
    have := (h3 n rfl).2 4 1 2 (by unfold Adj; decide) exIterGraph_back
    exact ⟨n, h1, by omega⟩

-- C138_hamiltonian: one graph with such a path.
def exHamilton : DirectedGraph := GraphCommand.applyCommands [.AddEdge 1 2, .AddEdge 1 3, .AddEdge 3 2, .AddEdge 2 4] .new
example : ∃ s t k, exHamilton.containsVertex s = true ∧ FindsWalk exHeap exHamilton s t [.Not .ContainsCycle, .MinLength exHamilton.vertexCount] k := by
  have hb : Built exHamilton := Built.new.applyCommands _
  obtain ⟨r, h1, h2⟩ := C138_hamiltonian exHeap exHamilton hb (by decide)
  obtain ⟨r', h3, _, h4⟩ := C47_first_path exHamilton hb
  cases h1.unique h3
  refine h2.1 ?_
  cases r with
  | some p => rfl
  | none =>
    refine absurd ⟨?_, by decide, fun v => ?_⟩ (h4.1 rfl [1, 3, 2, 4] (by simp))
    · unfold Adj; decide
    · rw [← mem_vertices, show exHamilton.vertices = [1, 2, 3, 4] by decide]
      simp only [List.mem_cons, List.not_mem_nil, or_false]
      tauto

end GC
