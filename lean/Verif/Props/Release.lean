/-
Properties C101 and C102: builds without overflow checks (`cargo build --release`).
-/
import Verif.Proofs.Wrapped
import Verif.Props.ShortestPath
import Verif.Props.MaxFlow
namespace GC
open DirectedGraph Path TopoSort ShortestPath LongestPath MaxFlow

/-! ### C101: where the build with overflow checks does not panic, the build without them does the same -/

/-- C101: `shortest_path`. -/
theorem C101_shortest_path (H : ScoredHeap) (g : DirectedGraph) (cost heuristic : ScoreFn) (start end_ : VertexId) :
    SameUnlessPanic (AStar.shortestPath H g cost heuristic start end_) (Release.shortestPath H g cost heuristic start end_) :=
  Prog.Ref.same (Release.shortestPath_ref H g cost heuristic start end_)

/-- C101: `constrained_shortest_path`. -/
theorem C101_constrained_shortest_path (H : ScoredHeap) (g : DirectedGraph) (cost heuristic : ScoreFn) (start end_ : VertexId)
    (cs : List Constraint) :
    SameUnlessPanic (AStar.constrainedShortestPath H g cost heuristic start end_ cs)
      (Release.constrainedShortestPath H g cost heuristic start end_ cs) :=
  Prog.Ref.same (Release.constrainedShortestPath_ref H g cost heuristic start end_ cs)

/-- C101: `dag_shortest_paths` and `dag_shortest_path`. -/
theorem C101_dag_shortest_paths (dag : DAG) (w : WeightFn) (start end_ : VertexId) :
    SameUnlessPanic (dagShortestPaths dag w start) (Release.dagShortestPaths dag w start) ∧
    SameUnlessPanic (dagShortestPath dag w start end_) (Release.dagShortestPath dag w start end_) :=
  have h := Release.dagShortestPathsWith_ref (f := pureFn w) (fun _ => .refl _) dag start
  ⟨h.same, (h.bind fun _ => .refl _).same⟩

/-- C101: `dag_longest_paths` and `dag_longest_path`. -/
theorem C101_dag_longest_paths (dag : DAG) (w : WeightFn) (start end_ : VertexId) :
    SameUnlessPanic (dagLongestPaths dag w start) (Release.dagLongestPaths dag w start) ∧
    SameUnlessPanic (dagLongestPath dag w start end_) (Release.dagLongestPath dag w start end_) :=
  have h := Release.dagLongestPaths_ref dag w start
  ⟨h.same, (h.bind fun _ => .refl _).same⟩

/-- C101: `bellman_ford`. -/
theorem C101_bellman_ford (g : DirectedGraph) (w : WeightFn) (start : VertexId) (r : Option Scores)
    (h : bellmanFord g w start = .done r) : Release.bellmanFord g w start = .done r := by
  rcases Release.bellmanFord_ref g w start with e | e
  · rw [h] at e; cases e
  · rw [e, h]

/-- C101: `spfa`. -/
theorem C101_spfa (g : DirectedGraph) (w : WeightFn) (start : VertexId) :
    SameUnlessPanic (spfa g w start) (Release.spfa g w start) := Prog.Ref.same (Release.spfa_ref g w start)

/-- C101: `max_flow`. -/
theorem C101_max_flow (g : DirectedGraph) (cap : Edge → UInt64) (start end_ : VertexId) :
    SameUnlessPanic (maxFlow g cap start end_) (Release.maxFlow g cap start end_) := Prog.Ref.same (Release.maxFlow_ref g cap start end_)

/-- C101: the searches of gc-short-path and gc-csp are the same in both builds, also where they panic. -/
theorem C101_commands (H : ScoredHeap) (g : DirectedGraph) (start end_ : VertexId) (cs : List Constraint) :
    Release.gcShortPath H g start end_ = AStar.gcShortPath H g start end_ ∧
    Release.gcCsp H g start end_ cs = AStar.gcCsp H g start end_ cs := by
  have h : Release.sumScore Release.oneWeightedEdge AStar.zeroHeuristic = AStar.sumScore AStar.oneWeightedEdge AStar.zeroHeuristic := by
    funext dg p
    unfold Release.sumScore AStar.sumScore Release.oneWeightedEdge AStar.oneWeightedEdge AStar.zeroHeuristic
    by_cases h0 : p.size = 0
    · dsimp only
      rw [if_pos h0, if_pos h0, if_neg (by norm_num)]
      rfl
    · dsimp only
      rw [if_neg h0, if_neg h0]
      split
      · rename_i hlt
        rw [Run.bind_done, Run.bind_done, Run.bind_done, Run.bind_done]
        unfold addI64 Release.addI64
        rw [Int.add_zero, if_pos (by omega), Release.wrapI64_of_range (by omega) (by omega)]
      · rfl
  constructor
  · unfold Release.gcShortPath AStar.gcShortPath Release.shortestPath AStar.shortestPath
    rw [h]
  · unfold Release.gcCsp AStar.gcCsp Release.constrainedShortestPath AStar.constrainedShortestPath
    rw [h]

/-- C101: gc-random does the same in both builds unless the build with overflow checks panics. -/
theorem C101_gc_random (rng : Nat → UInt64) (order : DirectedGraph → DirectedGraph) (root : Store.FPath) (force : Bool)
    (answer vertexCount : Text) (edgeCount : Option Text) (fs : Store.FS) :
    (∀ r, Returns (Random.gcRandom rng order root force answer vertexCount edgeCount fs) r → r.2 ≠ .panic →
      Returns (Release.gcRandom rng order root force answer vertexCount edgeCount fs) r) ∧
    (Diverges (Random.gcRandom rng order root force answer vertexCount edgeCount fs) →
      Diverges (Release.gcRandom rng order root force answer vertexCount edgeCount fs)) := by
  have key : Release.gcRandom rng order root force answer vertexCount edgeCount fs =
        Random.gcRandom rng order root force answer vertexCount edgeCount fs ∨
      Random.gcRandom rng order root force answer vertexCount edgeCount fs = Prog.ret (fs, .panic) := by
    unfold Release.gcRandom Random.gcRandom Release.sizes Random.sizes
    cases Text.parseUsize vertexCount with
    | none => exact .inr rfl
    | some vc =>
      simp only [Run.unwrap, Run.bind_done]
      by_cases h : vc * 3 < 2 ^ 64
      · rw [if_pos h, Nat.mod_eq_of_lt h]
        exact .inl rfl
      · rw [if_neg h]
        exact .inr rfl
  rcases key with e | e
  · rw [e]; exact ⟨fun _ h _ => h, fun h => h⟩
  · rw [e]
    refine ⟨fun r h hp => ?_, fun h => absurd h (Returns.ret _).not_diverges⟩
    rw [h.unique (Returns.ret _)] at hp
    exact absurd rfl hp

example : bellmanFord exWeighted exWeights 1 =
    .done (some [(1, ⟨⟨[1]⟩, 0⟩), (2, ⟨⟨[1, 3, 2]⟩, -1⟩), (3, ⟨⟨[1, 3]⟩, 1⟩), (4, ⟨⟨[1, 3, 2, 4]⟩, 2⟩)]) ∧
  Release.bellmanFord exWeighted exWeights 1 =
    .done (some [(1, ⟨⟨[1]⟩, 0⟩), (2, ⟨⟨[1, 3, 2]⟩, -1⟩), (3, ⟨⟨[1, 3]⟩, 1⟩), (4, ⟨⟨[1, 3, 2, 4]⟩, 2⟩)]) := by decide
example : Release.dagLongestPaths ⟨exWeighted⟩ exWeights 1 10 = dagLongestPaths ⟨exWeighted⟩ exWeights 1 10 ∧
    Release.spfa exWeighted exWeights 1 10 = spfa exWeighted exWeights 1 10 := by decide
example : Release.sizes "7".toList none = .done (7, 21) ∧ Random.sizes "7".toList none = .done (7, 21) := by decide +kernel
example : flowsOf (Release.maxFlow exNetwork exCapacity 1 4 30) = flowsOf (maxFlow exNetwork exCapacity 1 4 30) := by decide

/-! ### C102: results of builds without overflow checks -/

/-- C102 (partial): without overflow checks `bellman_ford` always returns; every entry is a walk from the start to its vertex, and its score
is the weight of that walk wrapped into an `i64`. Missing: see `C102_counterexample_bellman_ford`. -/
theorem C102_bellman_ford_partial (g : DirectedGraph) (h : Built g) (w : WeightFn) (start : VertexId) :
    ∃ r, Release.bellmanFord g w start = .done r ∧ ∀ scores, r = some scores → WrappedWalks g w start scores :=
  Release.bellmanFord_total h.wf w start

/-- C102 (partial): without overflow checks `spfa` always returns, also with negative cycles; the entries are as in
`C102_bellman_ford_partial`. Missing: see `C102_counterexample_spfa`. -/
theorem C102_spfa_partial (g : DirectedGraph) (h : Built g) (w : WeightFn) (start : VertexId) :
    ∃ scores, Returns (Release.spfa g w start) scores ∧ WrappedWalks g w start scores :=
  Release.spfa_total h.wf w start

/-- C102 (partial): without overflow checks the entries of `dag_shortest_paths` are walks with their wrapped weights.
Missing: they need not be lightest, and it may panic (C41). -/
theorem C102_dag_shortest_paths_partial (g : DirectedGraph) (h : Built g) (w : WeightFn) (start : VertexId) (scores : Scores)
    (hr : Returns (Release.dagShortestPaths ⟨g⟩ w start) scores) : WrappedWalks g w start scores := by
  obtain ⟨n, hn⟩ := hr
  have e := hn n (Nat.le_refl _)
  unfold Release.dagShortestPaths Release.dagShortestPathsWith at e
  simp only [Prog.bind, Prog.lift] at e
  obtain ⟨o, _, e⟩ := Run.bind_eq_done.1 e
  obtain ⟨l, _, e⟩ := Run.bind_eq_done.1 e
  exact Release.dagRun_ent h.wf e

/-- `C102_dag_shortest_paths_partial` for two edges whose weights add up to more than an `i64`: the score is -2^63. -/
example : WrappedWalks (graphOf [.AddEdge 1 2, .AddEdge 2 3]) (fun _ => 2 ^ 62) 1
    [(1, ⟨⟨[1]⟩, 0⟩), (2, ⟨⟨[1, 2]⟩, 2 ^ 62⟩), (3, ⟨⟨[1, 2, 3]⟩, -2 ^ 63⟩)] :=
  C102_dag_shortest_paths_partial _ (graphOf_built _) _ 1 _ (Mono.returns (n := 9)
    (Mono.bind (topologicalSort_mono _) fun _ => Mono.bind (Mono.lift _) fun _ => Mono.lift _) (by decide))

/-- C102 (partial): with weights so small that no sum along a simple path overflows, the results without overflow checks are right. -/
theorem C102_small_weights_partial (g : DirectedGraph) (h : Built g) (w : WeightFn) (hw : SmallWeights g w) (start : VertexId)
    (hn : ¬ NegativeCycle g w start) :
    (∃ scores, Release.bellmanFord g w start = .done (some scores) ∧ LightestWalks g w start scores) ∧
    ∃ scores, Returns (Release.spfa g w start) scores ∧ LightestWalks g w start scores := by
  obtain ⟨sc, h1, h2⟩ := C43_bellman_ford_returns g h w hw start hn
  obtain ⟨h3, h4⟩ := C45_spfa_returns_iff g h w hw start
  obtain ⟨sp, h5⟩ := h3.2 hn
  exact ⟨⟨sc, C101_bellman_ford g w start _ h1, h2⟩, sp, (C101_spfa g w start).1 _ h5, h4 sp h5⟩

/-- `C102_small_weights_partial` for a graph with a negative edge and no cycle. -/
example := C102_small_weights_partial exWeighted exWeighted_built exWeights exWeighted_small 1
  (noNegativeCycle_of_acyclic exWeighted_acyclic)

example : Built exWeighted ∧ SmallWeights exWeighted exWeights ∧ ¬ NegativeCycle exWeighted exWeights 1 := by
  refine ⟨exWeighted_built, fun e he => ?_, noNegativeCycle_of_acyclic exWeighted_acyclic⟩
  have : ∀ e ∈ exWeighted.edges, |exWeights e| * (exWeighted.vertexCount : Int) < 2 ^ 63 - 1 := by decide
  exact this e (exWeighted_built.wf.mem_edges.2 he)

/-- C102 (partial): without overflow checks `max_flow` returns for all networks with different `s` and `t`. The flow is feasible and blocks
every path; the reported value is the value of the flow modulo 2^64. Missing: see `C102_counterexample_max_flow`. -/
theorem C102_max_flow_partial (g : DirectedGraph) (h : Built g) (cap : Edge → UInt64) (s t : VertexId) (hst : s ≠ t) :
    ∃ (n : Nat) (m : FlowMap) (f : Edge → Nat), Returns (Release.maxFlow g cap s t) (n % 2 ^ 64, m) ∧
      (∀ e, HMap.get? m e = if g.containsEdge e = true then some (f e, (cap e).toNat) else none) ∧
      Feasible g cap s t f ∧ outFlow g f s = n ∧ inFlow g f s = 0 ∧ inFlow g f t = n ∧ outFlow g f t = 0 := by
  obtain ⟨m, f, n, h0, h1, h2, _⟩ := Release.maxFlow_total h.wf cap hst
  have e1 : inFlow g f s = 0 := Finset.sum_eq_zero fun e he => h2.intoStart e (Finset.mem_filter.1 he).2
  have e2 : outFlow g f t = 0 := Finset.sum_eq_zero fun e he => h2.outOfEnd e (Finset.mem_filter.1 he).2
  have e3 := h2.value
  have e4 := netOut_target h.wf hst h2.net
  rw [e3] at e4
  unfold netOut at e3 e4
  exact ⟨n, m, f, h0, h1.2, h2.feasible, by omega, e1, by omega, e2⟩

/-- `C102_max_flow_partial` for the largest capacities. -/
example := C102_max_flow_partial (graphOf [.AddEdge 1 2, .AddEdge 2 4, .AddEdge 1 3, .AddEdge 3 4]) (graphOf_built _)
  (fun _ => 18446744073709551615) 1 4 (by decide)

/-- Example: 1→2, 2→1. -/
def exBig : DirectedGraph := GraphCommand.applyCommands [.AddEdge 1 2, .AddEdge 2 1] .new

/-- Example: 1→2→3. -/
def exBigPath : DirectedGraph := GraphCommand.applyCommands [.AddEdge 1 2, .AddEdge 2 3] .new

theorem walkWeight_nonneg {w : Edge → Int} (h : ∀ e, 0 ≤ w e) (l : List VertexId) : 0 ≤ walkWeight w l := by
  induction l with
  | nil => exact Int.le_refl _
  | cons a l ih =>
    cases l with
    | nil => exact Int.le_refl _
    | cons b l =>
      have := h ⟨a, b⟩
      simp only [walkWeight]
      omega

/-- C102 is false for `bellman_ford`: on 1→2→3 with two weights 2^62 it reports the score -2^63 for the vertex 3; with a way back from 2
to 1 it reports a negative cycle, although no weight is negative. The build with overflow checks panics. -/
theorem C102_counterexample_bellman_ford :
    (Built exBigPath ∧ ∃ scores, Release.bellmanFord exBigPath (fun _ => 2 ^ 62) 1 = .done (some scores) ∧
      HMap.get? scores 3 = some ⟨⟨[1, 2, 3]⟩, -2 ^ 63⟩ ∧ ¬ LightestWalks exBigPath (fun _ => 2 ^ 62) 1 scores) ∧
    (Built exBig ∧ ¬ NegativeCycle exBig (fun _ => 2 ^ 62) 1 ∧ Release.bellmanFord exBig (fun _ => 2 ^ 62) 1 = .done none) ∧
    bellmanFord exBigPath (fun _ => 2 ^ 62) 1 = .panicked := by
  refine ⟨⟨Built.new.applyCommands _, [(1, ⟨⟨[1]⟩, 0⟩), (2, ⟨⟨[1, 2]⟩, 2 ^ 62⟩), (3, ⟨⟨[1, 2, 3]⟩, -2 ^ 63⟩)], by decide, by decide, ?_⟩,
    ⟨Built.new.applyCommands _, ?_, by decide⟩, by decide⟩
  · rintro ⟨_, _, h⟩
    have := (h 3 ⟨⟨[1, 2, 3]⟩, -2 ^ 63⟩ (by decide)).2.1
    exact absurd this (by decide)
  · rintro ⟨v, c, _, _, h⟩
    have := walkWeight_nonneg (w := fun _ => 2 ^ 62) (fun _ => by norm_num) c
    omega

/-- C102 is false for `spfa`: in every graph where a negative cycle can be reached from the start, it returns a result without any sign of
the cycle. The result is then never the map of lightest walks. -/
theorem C102_counterexample_spfa (g : DirectedGraph) (h : Built g) (w : WeightFn) (start : VertexId) (hn : NegativeCycle g w start) :
    ∃ scores, Returns (Release.spfa g w start) scores ∧ ¬ LightestWalks g w start scores := by
  obtain ⟨sc, h1, _⟩ := Release.spfa_total h.wf w start
  exact ⟨sc, h1, Release.not_lightest hn sc⟩

example : Built exNegative ∧ NegativeCycle exNegative exNegWeights 1 := ⟨Built.new.applyCommands _, exNegative_cycle⟩

/-- C102 is false for `dag_longest_paths`: with weight `i64::MIN` on 1→2 and weights 1 on 1→3→2, the walk 1→2 is reported to be the
longest, with score `i64::MIN`. -/
theorem C102_counterexample_dag_longest_paths :
    let g := GraphCommand.applyCommands [.AddEdge 1 2, .AddEdge 1 3, .AddEdge 3 2] .new
    let w : WeightFn := fun e => if e = ⟨1, 2⟩ then -2 ^ 63 else 1
    Built g ∧ Acyclic g ∧ ∃ scores, Returns (Release.dagLongestPaths ⟨g⟩ w 1) scores ∧
      HMap.get? scores 2 = some ⟨⟨[1, 2]⟩, -2 ^ 63⟩ ∧ WalkFromTo g 1 2 [1, 3, 2] ∧ walkWeight w [1, 3, 2] = 2 := by
  intro g w
  have hb : Built g := Built.new.applyCommands _
  have hm : Mono (Release.dagLongestPaths ⟨g⟩ w 1) :=
    Mono.bind (Mono.bind (topologicalSort_mono g) fun _ => Mono.bind (Mono.lift _) fun _ => Mono.lift _) fun _ => Mono.lift _
  have hr : Release.dagLongestPaths ⟨g⟩ w 1 10 = .done [(1, ⟨⟨[1]⟩, 0⟩), (2, ⟨⟨[1, 2]⟩, -2 ^ 63⟩), (3, ⟨⟨[1, 3]⟩, 1⟩)] := by decide
  refine ⟨hb, acyclic_of_check hb [1, 3, 2] (by decide), _, hm.returns hr, by decide, ⟨?_, rfl, rfl⟩, by decide⟩
  simp only [List.isChain_cons_cons, List.isChain_singleton, and_true]
  exact ⟨by unfold Adj; decide, by unfold Adj; decide⟩

/-- C102 is false for `max_flow`: with two disjoint paths of capacity 2^64 - 1 the reported value is 2^64 - 2, the value of the flow is
2^65 - 2. -/
theorem C102_counterexample_max_flow :
    let cap : Edge → UInt64 := fun _ => 18446744073709551615
    Built exNetwork ∧ ∃ m, Returns (Release.maxFlow exNetwork cap 1 4) (2 ^ 64 - 2, m) ∧
      ∃ f : Edge → Nat, (∀ e, HMap.get? m e = if exNetwork.containsEdge e = true then some (f e, (cap e).toNat) else none) ∧
        outFlow exNetwork f 1 = 2 ^ 65 - 2 := by
  intro cap
  have hb : Built exNetwork := Built.new.applyCommands _
  obtain ⟨n, m, f, h1, h2, _, h4, _⟩ := C102_max_flow_partial exNetwork hb cap 1 4 (by decide)
  have hm : Mono (Release.maxFlow exNetwork cap 1 4) := by
    refine Mono.loop (fun q => Mono.bind (Mono.loop (fun q => ?_) _) fun r => ?_) _
    · unfold Release.nextStep
      split
      · exact Mono.ret _
      · exact Mono.lift _
    · rcases r with _ | ⟨p, c⟩
      · exact Mono.ret _
      · exact Mono.lift _
  have hr : Release.maxFlow exNetwork cap 1 4 30 = .done (2 ^ 64 - 2, [(⟨1, 2⟩, 2 ^ 64 - 1, 2 ^ 64 - 1), (⟨1, 3⟩, 2 ^ 64 - 1, 2 ^ 64 - 1),
    (⟨2, 4⟩, 2 ^ 64 - 1, 2 ^ 64 - 1), (⟨2, 3⟩, 0, 2 ^ 64 - 1), (⟨3, 4⟩, 2 ^ 64 - 1, 2 ^ 64 - 1)]) := by decide
  have hu := (hm.returns hr).unique h1
  refine ⟨hb, m, ?_, f, h2, ?_⟩
  · rw [show 2 ^ 64 - 2 = n % 2 ^ 64 from congrArg Prod.fst hu]
    exact h1
  · have hmm : m = _ := (congrArg Prod.snd hu).symm
    have f1 := h2 ⟨1, 2⟩
    have f2 := h2 ⟨1, 3⟩
    rw [hmm, if_pos (by decide)] at f1 f2
    have f1 : f ⟨1, 2⟩ = 2 ^ 64 - 1 := (congrArg Prod.fst (Option.some.inj f1)).symm
    have f2 : f ⟨1, 3⟩ = 2 ^ 64 - 1 := (congrArg Prod.fst (Option.some.inj f2)).symm
    have e : exNetwork.edges.toFinset.filter (fun e => e.src = 1) = {⟨1, 2⟩, ⟨1, 3⟩} := by decide
    unfold outFlow
    rw [e, Finset.sum_pair (by decide), f1, f2]
    norm_num

end GC
