/-
C137: what cannot be reached does not matter.
-/
import Verif.Proofs.SameFrom
namespace GC
open DirectedGraph ShortestPath

/-- Commands far from `s` leave what can be reached from `s`, any number of them. -/
theorem C137_commands (g : DirectedGraph) (h : Built g) (s : VertexId) (cs : List GraphCommand) (hc : ∀ c ∈ cs, FarFrom g s c) :
    SameFrom g (GraphCommand.applyCommands cs g) s := by
  induction cs generalizing g with
  | nil => exact fun u _ v => Iff.rfl
  | cons c cs ih =>
    have h1 := sameFrom_applyTo h (hc c (by simp))
    exact h1.trans (ih _ (built_applyTo h c) fun c' hc' => (hc c' (List.mem_cons_of_mem _ hc')).congr h1)

/-- The iterators from `s` give the same vertices and the same paths. -/
theorem C137_iterators (g g' : DirectedGraph) (h : Built g) (h' : Built g') (s : VertexId) (hs : SameFrom g g' s) :
    (∃ out out', Returns (Prog.collect (DepthFirstIter.next g) (DepthFirstIter.from_ s)) out ∧
      Returns (Prog.collect (DepthFirstIter.next g') (DepthFirstIter.from_ s)) out' ∧ out.Perm out') ∧
    (∃ out out', Returns (Prog.collect (BreadthFirstIter.next g) (BreadthFirstIter.from_ s)) out ∧
      Returns (Prog.collect (BreadthFirstIter.next g') (BreadthFirstIter.from_ s)) out' ∧ out.Perm out') ∧
    (∃ out out', Returns (Prog.collect (DepthFirstPathIter.next g) (DepthFirstPathIter.from_ s)) out ∧
      Returns (Prog.collect (DepthFirstPathIter.next g') (DepthFirstPathIter.from_ s)) out' ∧ out.Perm out') ∧
    ∃ out out', Returns (Prog.collect (BreadthFirstPathIter.next g) (BreadthFirstPathIter.from_ s)) out ∧
      Returns (Prog.collect (BreadthFirstPathIter.next g') (BreadthFirstPathIter.from_ s)) out' ∧ out.Perm out' := by
  refine ⟨?_, ?_, ?_, ?_⟩
  · obtain ⟨o, h1, n, _, h3⟩ := C24_dfs_exact g h s
    obtain ⟨o', h1', n', _, h3'⟩ := C24_dfs_exact g' h' s
    exact ⟨o, o', h1, h1', (List.perm_ext_iff_of_nodup n n').2 fun v => by rw [h3, h3', hs.reach]⟩
  · obtain ⟨o, h1, n, h3, _⟩ := C25_bfs_exact g h s
    obtain ⟨o', h1', n', h3', _⟩ := C25_bfs_exact g' h' s
    exact ⟨o, o', h1, h1', (List.perm_ext_iff_of_nodup n n').2 fun v => by rw [h3, h3', hs.reach]⟩
  · obtain ⟨o, h1, n, h3⟩ := C27_dfs_paths g h s
    obtain ⟨o', h1', n', h3'⟩ := C27_dfs_paths g' h' s
    exact ⟨o, o', h1, h1', (List.perm_ext_iff_of_nodup n n').2 fun v => by rw [h3, h3', hs.simplePath]⟩
  · obtain ⟨o, h1, n, h3, _⟩ := C28_bfs_paths g h s
    obtain ⟨o', h1', n', h3', _⟩ := C28_bfs_paths g' h' s
    exact ⟨o, o', h1, h1', (List.perm_ext_iff_of_nodup n n').2 fun v => by rw [h3, h3', hs.simplePath]⟩

/-- gc-short-path from `s` finds a path with as many edges, or none in both graphs. -/
theorem C137_short_path (H H' : ScoredHeap) (g g' : DirectedGraph) (h : Built g) (h' : Built g') (s : VertexId) (hs : SameFrom g g' s)
    (hsize : g.vertexCount < 2 ^ 63) (hsize' : g'.vertexCount < 2 ^ 63) (t : VertexId) (r : Option Int) :
    Cost H g s t r ↔ Cost H' g' s t r := by
  have one : ∀ (H H' : ScoredHeap) (g g' : DirectedGraph), Built g → Built g' → SameFrom g g' s → g.vertexCount < 2 ^ 63 → g'.vertexCount < 2 ^ 63 →
      Cost H g s t r → Cost H' g' s t r := by
    intro H H' g g' h h' hs hsize hsize' hc
    cases r with
    | some k => exact (cost_iff h' hsize').2 ((Best.congr fun l => hs.walk t l).1 ((cost_iff h hsize).1 hc))
    | none =>
      obtain ⟨r', h1, h2, _⟩ := C33_short_path_optimal H' g' h' hsize' s t
      have hn := (cost_spec h hsize hc).1.1 rfl
      cases h2.2 (fun hr => hn ((hs.reach t).2 hr))
      exact ⟨none, h1, rfl⟩
  exact ⟨one H H' g g' h h' hs hsize hsize', one H' H g' g h' h hs.symm hsize' hsize⟩

/-- gc-csp from `s` finds a walk with as many edges, whatever the constraints are. -/
theorem C137_csp (H H' : ScoredHeap) (g g' : DirectedGraph) (h : Built g) (h' : Built g') (s : VertexId) (hs : SameFrom g g' s)
    (t : VertexId) (cs : List Constraint) (k : Int) (hk : k < 2 ^ 63 - 1) : FindsWalk H g s t cs k ↔ FindsWalk H' g' s t cs k := by
  rw [csp_found_iff h hk, csp_found_iff h' hk]
  exact Best.congr fun l => by rw [hs.walk]

/-- bellman_ford and spfa from `s` give the same scores whenever they return in both graphs, and bellman_ford the same answer about negative
cycles: whatever the weights are, and also if there are negative cycles elsewhere. -/
theorem C137_weights (g g' : DirectedGraph) (h : Built g) (h' : Built g') (s : VertexId) (hs : SameFrom g g' s) (w : WeightFn) :
    (∀ r r', bellmanFord g w s = .done r → bellmanFord g' w s = .done r' →
      (r = none ↔ r' = none) ∧ ∀ m m', r = some m → r' = some m' → ∀ v, (HMap.get? m v).map ScoredPath.score = (HMap.get? m' v).map ScoredPath.score) ∧
    ∀ m m', Returns (spfa g w s) m → Returns (spfa g' w s) m' → ∀ v, (HMap.get? m v).map ScoredPath.score = (HMap.get? m' v).map ScoredPath.score := by
  refine ⟨?_, ?_⟩
  · intro r r' hr hr'
    rcases C112_bellman_ford g h w s with ⟨e, _⟩ | ⟨e, a⟩ | ⟨m, e, a, b⟩
    · rw [e] at hr; cases hr
    · rw [e] at hr
      cases hr
      rcases C112_bellman_ford g' h' w s with ⟨e', _⟩ | ⟨e', a'⟩ | ⟨m', e', a', b'⟩
      · rw [e'] at hr'; cases hr'
      · rw [e'] at hr'; cases hr'; exact ⟨Iff.rfl, fun _ _ hm => by cases hm⟩
      · exact absurd (hs.negative.1 a) b'
    · rw [e] at hr
      cases hr
      rcases C112_bellman_ford g' h' w s with ⟨e', _⟩ | ⟨e', a'⟩ | ⟨m', e', a', b'⟩
      · rw [e'] at hr'; cases hr'
      · exact absurd (hs.negative.2 a') b
      · rw [e'] at hr'
        cases hr'
        refine ⟨by simp, fun x x' hx hx' v => ?_⟩
        cases hx
        cases hx'
        exact lightestBelowMax_unique (hs.lightest a) a' v
  · intro m m' hm hm' v
    rcases C112_spfa g h w s with ⟨hp, _⟩ | ⟨x, h1, h2, _⟩
    · exact absurd hp hm.not_panics
    · rcases C112_spfa g' h' w s with ⟨hp, _⟩ | ⟨x', h1', h2', _⟩
      · exact absurd hp hm'.not_panics
      · cases h1.unique hm
        cases h1'.unique hm'
        exact lightestBelowMax_unique (hs.lightest h2) h2' v

/-- dag_shortest_paths from `s` gives the same scores if it returns in both graphs. Missing: that it returns in both or in none, which is false,
see `C137_counterexample`. -/
theorem C137_dag_partial (g g' : DirectedGraph) (h : Built g) (h' : Built g') (ha : Acyclic g) (ha' : Acyclic g') (s : VertexId)
    (hs : SameFrom g g' s) (w : WeightFn) (m m' : Scores) (hm : Returns (dagShortestPaths ⟨g⟩ w s) m)
    (hm' : Returns (dagShortestPaths ⟨g'⟩ w s) m') (v : VertexId) :
    (HMap.get? m v).map ScoredPath.score = (HMap.get? m' v).map ScoredPath.score := by
  obtain ⟨_, a2, a3⟩ := C40_dag_shortest_paths g h ha w s m hm
  obtain ⟨_, b2, b3⟩ := C40_dag_shortest_paths g' h' ha' w s m' hm'
  have hab : (HMap.get? m v).isSome = true ↔ (HMap.get? m' v).isSome = true :=
    (HMap.get?_isSome_iff.trans (a2 v)).trans ((hs.reach v).trans (HMap.get?_isSome_iff.trans (b2 v)).symm)
  cases e : HMap.get? m v with
  | none =>
    cases e' : HMap.get? m' v with
    | none => rfl
    | some x' => rw [e, e'] at hab; exact absurd (hab.2 rfl) (by simp)
  | some x =>
    cases e' : HMap.get? m' v with
    | none => rw [e, e'] at hab; exact absurd (hab.1 rfl) (by simp)
    | some x' =>
      obtain ⟨p1, p2, p3⟩ := a3 v x (HMap.get?_mem e)
      obtain ⟨q1, q2, q3⟩ := b3 v x' (HMap.get?_mem e')
      have l1 := p3 _ ((hs.walk v _).2 q1)
      have l2 := q3 _ ((hs.walk v _).1 p1)
      rw [← q2] at l1
      rw [← p2] at l2
      exact congrArg some (le_antisymm l1 l2)

theorem exTwoEdges_reach {v : VertexId} (hr : Reach exTwoEdges 1 v) : v = 1 ∨ v = 2 := by
  have hb : Built exTwoEdges := Built.new.applyCommands _
  induction hr with
  | refl => exact .inl rfl
  | tail _ h2 ih =>
    have hm := hb.wf.mem_edges.2 h2
    rw [show exTwoEdges.edges = [⟨1, 2⟩, ⟨3, 4⟩] by decide] at hm
    simp only [List.mem_cons, Edge.mk.injEq, List.not_mem_nil, or_false] at hm
    rcases hm with ⟨_, rfl⟩ | ⟨rfl, _⟩
    · exact .inr rfl
    · exact absurd ih (by decide)

/-- For dag_shortest_paths the claim is false: with the edges 1 → 2 and 3 → 4 it panics from 1, and does not once the vertex 3, which cannot be
reached from 1, is removed. -/
theorem C137_counterexample : ∃ g, Built g ∧ Acyclic g ∧ FarFrom g 1 (.RemoveVertex 3) ∧ Panics (dagShortestPaths ⟨g⟩ (fun _ => 1) 1) ∧
    ∃ scores, Returns (dagShortestPaths ⟨GraphCommand.applyCommands [.RemoveVertex 3] g⟩ (fun _ => 1) 1) scores := by
  have hb : Built exTwoEdges := Built.new.applyCommands _
  refine ⟨exTwoEdges, hb, acyclic_of_check hb [1, 2, 3, 4] (by decide), ?_, ?_, ?_⟩
  · exact fun hr => absurd (exTwoEdges_reach hr) (by decide)
  · exact (dagShortestPaths_mono _ _ _).panics (n := 6) (by decide)
  · exact ⟨[(1, ⟨⟨[1]⟩, 0⟩), (2, ⟨⟨[1, 2]⟩, 1⟩)], (dagShortestPaths_mono _ _ _).returns (n := 6) (by decide)⟩

/-! ### Examples: from 1 one cannot get to 5 in `exIterGraph` -/

theorem exIterGraph_reach {v : VertexId} (hr : Reach exIterGraph 1 v) : v = 1 ∨ v = 2 ∨ v = 3 ∨ v = 4 := by
  induction hr with
  | refl => exact .inl rfl
  | tail _ h2 ih =>
    have hm := exIterGraph_built.wf.mem_edges.2 h2
    have hall : ∀ e ∈ exIterGraph.edges, e.dst = 1 ∨ e.dst = 2 ∨ e.dst = 3 ∨ e.dst = 4 := by decide
    exact hall _ hm

/-- Removes 5, with its edges, and adds new vertices and edges to those that can be reached. -/
def exFar : List GraphCommand := [.RemoveVertex 5, .AddVertex 8, .AddEdge 6 1, .AddEdge 6 7, .AddEdge 5 4, .RemoveEdge 6 1]

theorem exFar_far : ∀ c ∈ exFar, FarFrom exIterGraph 1 c := by
  unfold exFar
  simp only [List.forall_mem_cons, List.not_mem_nil, false_implies, implies_true, and_true, FarFrom, true_and]
  refine ⟨?_, ?_, ?_, ?_, ?_⟩ <;> exact fun hr => absurd (exIterGraph_reach hr) (by decide)

-- C137_commands
theorem exFar_same : SameFrom exIterGraph (GraphCommand.applyCommands exFar exIterGraph) 1 := C137_commands _ exIterGraph_built 1 exFar exFar_far
theorem exFar_built : Built (GraphCommand.applyCommands exFar exIterGraph) := exIterGraph_built.applyCommands _
example : SameFrom exIterGraph (GraphCommand.applyCommands exFar exIterGraph) 1 ∧ exIterGraph.edges ≠ (GraphCommand.applyCommands exFar exIterGraph).edges :=
  ⟨C137_commands _ exIterGraph_built 1 exFar exFar_far, by decide⟩

-- C137_iterators
example := C137_iterators _ _ exIterGraph_built exFar_built 1 exFar_same

-- C137_short_path, C137_csp: the same walks are found in the changed graph.
example : Cost exHeap (GraphCommand.applyCommands exFar exIterGraph) 1 3 (some 1) :=
  (C137_short_path exHeap exHeap _ _ exIterGraph_built exFar_built 1 exFar_same (by decide) (by decide) 3 _).1
    ((C136_no_constraints exHeap exHeap exIterGraph exIterGraph_built (by decide) 1 3 1 (by decide)).1 (exFound (p := [1, 3]) 60 (by decide +kernel)))
example : FindsWalk exHeap (GraphCommand.applyCommands exFar exIterGraph) 1 3 [.MaxLength 9, .ContainsVertex 4] 4 :=
  (C137_csp exHeap exHeap _ _ exIterGraph_built exFar_built 1 exFar_same 3 _ 4 (by decide)).1 (exFound (p := [1, 2, 4, 1, 3]) 200 (by decide +kernel))

-- C137_weights: with a negative cycle that cannot be reached.
example : let g := GraphCommand.applyCommands [.AddEdge 6 7, .AddEdge 7 6] exIterGraph
    let w : WeightFn := fun e => if e.src < 6 then 2 else -1
    ∃ m m', bellmanFord exIterGraph w 1 = .done (some m) ∧ bellmanFord g w 1 = .done (some m') ∧
      (HMap.get? m 4).map ScoredPath.score = some 4 ∧ (HMap.get? m' 4).map ScoredPath.score = some 4 := by
  intro g w
  have hs : SameFrom exIterGraph g 1 := C137_commands _ exIterGraph_built 1 _ (by
    simp only [List.forall_mem_cons, List.not_mem_nil, false_implies, implies_true, and_true, FarFrom]
    refine ⟨?_, ?_⟩ <;> exact fun hr => absurd (exIterGraph_reach hr) (by decide))
  have e1 : (match bellmanFord exIterGraph w 1 with | .done (some m) => (HMap.get? m 4).map ScoredPath.score | _ => none) = some 4 := by decide +kernel
  have e2 : (match bellmanFord g w 1 with | .done (some _) => true | _ => false) = true := by decide +kernel
  split at e1
  · rename_i m hm
    split at e2
    · rename_i m' hm'
      have := ((C137_weights _ _ exIterGraph_built (exIterGraph_built.applyCommands _) 1 hs w).1 _ _ hm hm').2 m m' rfl rfl 4
      exact ⟨m, m', hm, hm', e1, this ▸ e1⟩
    · cases e2
  · cases e1

-- C137_dag_partial: here it returns in both graphs.
example : let g := GraphCommand.applyCommands [.AddVertex 3, .AddEdge 1 2] .new
    let g' := GraphCommand.applyCommands [.RemoveVertex 3] g
    ∃ m m', Returns (dagShortestPaths ⟨g⟩ (fun _ => 1) 1) m ∧ Returns (dagShortestPaths ⟨g'⟩ (fun _ => 1) 1) m' ∧
      (HMap.get? m 2).map ScoredPath.score = (HMap.get? m' 2).map ScoredPath.score := by
  intro g g'
  have hb : Built g := Built.new.applyCommands _
  have hb' : Built g' := hb.applyCommands _
  have hr : ¬ Reach g 1 3 := by
    intro hr
    rcases Relation.ReflTransGen.cases_tail hr with e | ⟨u, _, hu⟩
    · cases e
    · have hm := hb.wf.mem_edges.2 hu
      rw [show g.edges = [⟨1, 2⟩] by decide] at hm
      simp only [List.mem_singleton, Edge.mk.injEq] at hm
      exact absurd hm.2 (by decide)
  have h1 : Returns (dagShortestPaths ⟨g⟩ (fun _ => 1) 1) [(1, ⟨⟨[1]⟩, 0⟩), (2, ⟨⟨[1, 2]⟩, 1⟩)] :=
    (dagShortestPaths_mono _ _ _).returns (n := 6) (by decide)
  have h2 : Returns (dagShortestPaths ⟨g'⟩ (fun _ => 1) 1) [(1, ⟨⟨[1]⟩, 0⟩), (2, ⟨⟨[1, 2]⟩, 1⟩)] :=
    (dagShortestPaths_mono _ _ _).returns (n := 6) (by decide)
  exact ⟨_, _, h1, h2, C137_dag_partial g g' hb hb' (acyclic_of_check hb [1, 2, 3] (by decide)) (acyclic_of_check hb' [1, 2] (by decide)) 1
    (C137_commands g hb 1 _ (by simpa [FarFrom] using hr)) _ _ _ h1 h2 2⟩

end GC
