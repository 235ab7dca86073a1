/-
Properties C40-C46: shortest and longest paths.
-/
import Verif.Proofs.BellmanFord
import Verif.Props.Topo
import Verif.Props.Search
namespace GC
open DirectedGraph TopoSort ShortestPath LongestPath

/-- Example: 1→2 (4), 1→3 (1), 3→2 (-2), 2→4 (3), 3→4 (5). -/
def exWeighted : DirectedGraph :=
  GraphCommand.applyCommands [.AddEdge 1 2, .AddEdge 1 3, .AddEdge 3 2, .AddEdge 2 4, .AddEdge 3 4] .new

/-- Weights for `exWeighted`. -/
def exWeights : WeightFn := fun e =>
  if e = ⟨1, 2⟩ then 4 else if e = ⟨1, 3⟩ then 1 else if e = ⟨3, 2⟩ then -2 else if e = ⟨2, 4⟩ then 3 else 5

theorem exWeighted_built : Built exWeighted := Built.new.applyCommands _

/-- A computable sufficient condition: `l` lists the vertices so that all edges go forward. -/
theorem acyclic_of_check {g : DirectedGraph} (h : Built g) (l : List VertexId)
    (he : ∀ e ∈ g.edges, l.idxOf e.src < l.idxOf e.dst) : Acyclic g := by
  have key : ∀ u v, Adj g u v → l.idxOf u < l.idxOf v := fun u v huv => he ⟨u, v⟩ (h.wf.mem_edges.2 huv)
  intro v hv
  have : ∀ {a b}, Relation.TransGen (Adj g) a b → l.idxOf a < l.idxOf b := by
    intro a b hab
    induction hab with
    | single h => exact key _ _ h
    | tail _ h ih => exact Nat.lt_trans ih (key _ _ h)
  exact Nat.lt_irrefl _ (this hv)

theorem exWeighted_acyclic : Acyclic exWeighted :=
  acyclic_of_check exWeighted_built [1, 3, 2, 4] (by decide)

theorem topologicalSort_mono (g : DirectedGraph) : Mono (topologicalSort g) := by
  refine Mono.bind (Mono.loop (fun s => ?_) _) (fun s => ?_)
  · unfold TopoSort.step
    split <;> exact Mono.ret _
  · split <;> exact Mono.ret _

theorem dagShortestPathsWith_mono (g : DirectedGraph) (f : PartialWeightFn) (s : VertexId) : Mono (dagShortestPathsWith ⟨g⟩ f s) :=
  Mono.bind (topologicalSort_mono g) fun _ => Mono.bind (Mono.lift _) fun _ => Mono.lift _

theorem dagShortestPaths_mono (g : DirectedGraph) (w : WeightFn) (s : VertexId) : Mono (dagShortestPaths ⟨g⟩ w s) :=
  dagShortestPathsWith_mono g _ s

/-- On an acyclic graph `dag_shortest_paths` runs `dagRun` on a topological order. -/
theorem dagShortestPathsWith_eq {g : DirectedGraph} (h : Built g) (ha : Acyclic g) (f : PartialWeightFn) (hf : ∀ e, f e ≠ .running)
    (s : VertexId) :
    ∃ l, Returns (topologicalSort g) (some l) ∧ TopologicalOrder g l ∧
      (∀ sc, Returns (dagShortestPathsWith ⟨g⟩ f s) sc ↔ dagRun g f s l = .done sc) ∧
      (Panics (dagShortestPathsWith ⟨g⟩ f s) ↔ dagRun g f s l = .panicked) := by
  obtain ⟨l, h1, h2⟩ := C39_acyclic_succeeds g h ha
  have hr : ∀ sc, dagRun g f s l = .done sc → Returns (dagShortestPathsWith ⟨g⟩ f s) sc := by
    intro sc hd
    refine Returns.bind h1 (Returns.bind (a := l) (Returns.lift_done _) ?_)
    simp only [hd]
    exact Returns.lift_done _
  have hp : dagRun g f s l = .panicked → Panics (dagShortestPathsWith ⟨g⟩ f s) := by
    intro hd
    refine Panics.bind_right h1 (Panics.bind_right (a := l) (Returns.lift_done _) ?_)
    simp only [hd]
    exact ⟨0, fun _ _ => rfl⟩
  refine ⟨l, h1, h2, fun sc => ⟨fun hret => ?_, hr sc⟩, ⟨fun hpan => ?_, hp⟩⟩
  · cases hd : dagRun g f s l with
    | running => exact absurd hd (dagRun_not_running hf l)
    | panicked => exact absurd (hp hd) hret.not_panics
    | done sc' => rw [(hr sc' hd).unique hret]
  · cases hd : dagRun g f s l with
    | running => exact absurd hd (dagRun_not_running hf l)
    | panicked => rfl
    | done sc' => exact absurd hpan (hr sc' hd).not_panics

theorem pureFn_ne_running (w : WeightFn) (e : Edge) : pureFn w e ≠ .running := by simp [pureFn]

theorem dagShortestPaths_eq {g : DirectedGraph} (h : Built g) (ha : Acyclic g) (w : WeightFn) (s : VertexId) :
    ∃ l, Returns (topologicalSort g) (some l) ∧ TopologicalOrder g l ∧
      (∀ sc, Returns (dagShortestPaths ⟨g⟩ w s) sc ↔ dagRun g (pureFn w) s l = .done sc) ∧
      (Panics (dagShortestPaths ⟨g⟩ w s) ↔ dagRun g (pureFn w) s l = .panicked) :=
  dagShortestPathsWith_eq h ha _ (pureFn_ne_running w) s

/-! ### C40 -/

/-- C40: when `dag_shortest_paths` returns on an acyclic graph, its keys are exactly the vertices reachable from the start, and each entry
is a walk of minimum total weight carrying that weight. -/
theorem C40_dag_shortest_paths (g : DirectedGraph) (h : Built g) (ha : Acyclic g) (w : WeightFn) (start : VertexId)
    (scores : Scores) (hr : Returns (dagShortestPaths ⟨g⟩ w start) scores) : LightestWalks g w start scores := by
  obtain ⟨l, _, h2, h3, _⟩ := dagShortestPaths_eq h ha w start
  exact (dagRun_correct h.wf h2 ((h3 scores).1 hr)).1

/-- C40: when `dag_shortest_path` returns, it answers `None` exactly if the end cannot be reached, and otherwise a walk of minimum total
weight. -/
theorem C40_dag_shortest_path (g : DirectedGraph) (h : Built g) (ha : Acyclic g) (w : WeightFn) (start end_ : VertexId)
    (r : Option ScoredPath) (hr : Returns (dagShortestPath ⟨g⟩ w start end_) r) :
    (r = none ↔ ¬ Reach g start end_) ∧
    ∀ sp, r = some sp → WalkFromTo g start end_ sp.path.vertices ∧ sp.score = walkWeight w sp.path.vertices ∧
      ∀ l, WalkFromTo g start end_ l → sp.score ≤ walkWeight w l := by
  have hex : ∃ sc, Returns (dagShortestPaths ⟨g⟩ w start) sc := by
    obtain ⟨n, hn⟩ := hr
    have := hn n (Nat.le_refl _)
    unfold dagShortestPath at this
    simp only [Prog.bind, Run.bind_eq_done] at this
    obtain ⟨sc, h1, _⟩ := this
    exact ⟨sc, (dagShortestPaths_mono g w start).returns h1⟩
  obtain ⟨sc, hsc⟩ := hex
  have hr' : r = HMap.get? sc end_ := hr.unique (Returns.bind hsc (Returns.ret _))
  obtain ⟨h1, h2, h3⟩ := C40_dag_shortest_paths g h ha w start sc hsc
  constructor
  · rw [hr', HMap.get?_eq_none_iff, ← h2 end_]
    rfl
  · intro sp hsp
    exact h3 end_ sp (HMap.get?_mem (hr'.symm.trans hsp))

example : Built exWeighted ∧ Acyclic exWeighted ∧
    dagShortestPaths ⟨exWeighted⟩ exWeights 1 10 =
      .done [(1, ⟨⟨[1]⟩, 0⟩), (2, ⟨⟨[1, 3, 2]⟩, -1⟩), (3, ⟨⟨[1, 3]⟩, 1⟩), (4, ⟨⟨[1, 3, 2, 4]⟩, 2⟩)] :=
  ⟨exWeighted_built, exWeighted_acyclic, by decide⟩

/-! ### C41 -/

/-- C41, exact condition: on an acyclic graph with small weights `dag_shortest_paths` panics if and only if some vertex after the start in
the computed topological order has an outgoing edge but cannot be reached from the start; otherwise it returns. -/
theorem C41_panics_iff (g : DirectedGraph) (h : Built g) (ha : Acyclic g) (w : WeightFn) (hw : SmallWeights g w) (start : VertexId) :
    ∃ order, Returns (topologicalSort g) (some order) ∧
      (Panics (dagShortestPaths ⟨g⟩ w start) ↔ ∃ u, Before order start u ∧ (∃ v, Adj g u v) ∧ ¬ Reach g start u) ∧
      ((∃ scores, Returns (dagShortestPaths ⟨g⟩ w start) scores) ∨ Panics (dagShortestPaths ⟨g⟩ w start)) := by
  obtain ⟨l, h1, h2, h3, h4⟩ := dagShortestPaths_eq h ha w start
  refine ⟨l, h1, ?_, ?_⟩
  · constructor
    · intro hp
      by_contra hno
      obtain ⟨sc, hsc⟩ := dagRun_done h.wf h2 hw (s := start) (by
        intro u hu hy
        by_contra c
        exact hno ⟨u, hu, hy, c⟩)
      exact ((h3 sc).2 hsc).not_panics hp
    · rintro ⟨u, hu, hy, hnr⟩
      cases hd : dagRun g (pureFn w) start l with
      | running => exact absurd hd (dagRun_not_running (pureFn_ne_running w) l)
      | panicked => exact h4.2 hd
      | done sc =>
        exfalso
        have hs : g.containsVertex start = true := by
          obtain ⟨i, j, _, h5, _⟩ := hu
          exact (h2.2.1 start).1 (List.mem_of_getElem? h5)
        exact hnr ((dagRun_correct h.wf h2 hd).2 u (.inr hu) hy hs)
  · cases hd : dagRun g (pureFn w) start l with
    | running => exact absurd hd (dagRun_not_running (pureFn_ne_running w) l)
    | panicked => exact .inr (h4.2 hd)
    | done sc => exact .inl ⟨sc, (h3 sc).2 hd⟩

/-- C41 (partial): `dag_shortest_paths` returns if every vertex with an outgoing edge can be reached from the start.
Missing: other graphs, on which it can panic (`C41_counterexample`). -/
theorem C41_returns_partial (g : DirectedGraph) (h : Built g) (ha : Acyclic g) (w : WeightFn) (hw : SmallWeights g w) (start : VertexId)
    (hreach : ∀ u v, Adj g u v → Reach g start u) : ∃ scores, Returns (dagShortestPaths ⟨g⟩ w start) scores := by
  obtain ⟨l, _, h2, h3⟩ := C41_panics_iff g h ha w hw start
  rcases h3 with h3 | h3
  · exact h3
  · obtain ⟨u, _, ⟨v, huv⟩, hn⟩ := h2.1 h3
    exact absurd (hreach u v huv) hn

/-- Example: 1→2 and 3→4. -/
def exTwoEdges : DirectedGraph := GraphCommand.applyCommands [.AddEdge 1 2, .AddEdge 3 4] .new

/-- C41 is false: on the graph with edges 1→2 and 3→4 and unit weights `dag_shortest_paths` from 1 panics for one iteration order of the
hash map and returns for another. -/
theorem C41_counterexample : ∃ g g', Built g ∧ Built g' ∧ SameGraph g g' ∧ Acyclic g ∧ SmallWeights g (fun _ => 1) ∧
    Panics (dagShortestPaths ⟨g⟩ (fun _ => 1) 1) ∧ ∃ scores, Returns (dagShortestPaths ⟨g'⟩ (fun _ => 1) 1) scores := by
  have hp : exTwoEdges.edgeMap.Perm exTwoEdges.edgeMap.reverse := (List.reverse_perm _).symm
  have hb : Built exTwoEdges := Built.new.applyCommands _
  refine ⟨exTwoEdges, ⟨exTwoEdges.edgeMap.reverse⟩, hb, hb.reorder hp, ?_, ?_, ?_, ?_, ?_⟩
  · constructor
    · intro v
      rw [Bool.eq_iff_iff, ← mem_vertices, ← mem_vertices]
      exact (hp.map Prod.fst).mem_iff
    · intro e
      rw [Bool.eq_iff_iff, ← hb.wf.mem_edges, ← (hb.reorder hp).wf.mem_edges]
      unfold edges
      exact (hp.flatMap_right _).mem_iff
  · exact acyclic_of_check hb [1, 2, 3, 4] (by decide)
  · intro e _
    have : exTwoEdges.vertexCount = 4 := by decide
    rw [this]
    norm_num
  · exact (dagShortestPaths_mono _ _ _).panics (n := 6) (by decide)
  · exact ⟨[(1, ⟨⟨[1]⟩, 0⟩), (2, ⟨⟨[1, 2]⟩, 1⟩)], (dagShortestPaths_mono _ _ _).returns (n := 6) (by decide)⟩

example : (∀ u v, Adj exWeighted u v → Reach exWeighted 1 u) ∧ SmallWeights exWeighted exWeights := by
  have h12 : Adj exWeighted 1 2 := by unfold Adj; decide
  have h13 : Adj exWeighted 1 3 := by unfold Adj; decide
  constructor
  · intro u v huv
    have hm := exWeighted_built.wf.mem_edges.2 huv
    have he : exWeighted.edges = [⟨1, 2⟩, ⟨1, 3⟩, ⟨2, 4⟩, ⟨3, 2⟩, ⟨3, 4⟩] := by decide
    rw [he] at hm
    simp only [List.mem_cons, Edge.mk.injEq, List.not_mem_nil, or_false] at hm
    rcases hm with ⟨rfl, _⟩ | ⟨rfl, _⟩ | ⟨rfl, _⟩ | ⟨rfl, _⟩ | ⟨rfl, _⟩
    · exact .refl
    · exact .refl
    · exact .single h12
    · exact .single h13
    · exact .single h13
  · intro e he
    have hm := exWeighted_built.wf.mem_edges.2 he
    revert e
    have : ∀ e ∈ exWeighted.edges, |exWeights e| * (exWeighted.vertexCount : Int) < 2 ^ 63 - 1 := by decide
    intro e _ hm
    exact this e hm

/-! ### C42 -/

theorem negateScores_eq (sc sc' : Scores) (h : negateScores sc = .done sc') :
    sc' = sc.map (fun p => (p.1, ⟨p.2.path, -p.2.score⟩)) := by
  induction sc generalizing sc' with
  | nil => cases h; rfl
  | cons p m ih =>
    obtain ⟨k, sp⟩ := p
    rw [negateScores, Run.bind_eq_done] at h
    obtain ⟨c, h1, h⟩ := h
    rw [Run.bind_eq_done] at h
    obtain ⟨m', h2, h⟩ := h
    cases h
    have hc : c = -sp.score := by
      unfold negI64 at h1
      split at h1
      · exact (Run.done.inj h1).symm
      · cases h1
    rw [ih m' h2, hc]
    rfl

theorem negateScores_done (sc : Scores) (h : ∀ p ∈ sc, -2 ^ 63 < p.2.score) : ∃ sc', negateScores sc = .done sc' := by
  induction sc with
  | nil => exact ⟨[], rfl⟩
  | cons p m ih =>
    obtain ⟨k, sp⟩ := p
    obtain ⟨m', hm⟩ := ih (fun p hp => h p (by simp [hp]))
    have h1 := h (k, sp) (by simp)
    simp only at h1
    exact ⟨(k, ⟨sp.path, -sp.score⟩) :: m', by
      rw [negateScores, negI64, if_pos (by omega), Run.bind_done, hm, Run.bind_done]⟩

theorem negI64_ne_running (w : WeightFn) (e : Edge) : negI64 (w e) ≠ .running := by
  unfold negI64
  split <;> simp

/-- A `dag_longest_paths` that returns is a `dag_shortest_paths` with the negated weights, none of which overflowed on an edge that leaves
a reachable vertex. -/
theorem longest_inv {g : DirectedGraph} (h : Built g) (ha : Acyclic g) {w : WeightFn} {start : VertexId} {scores : Scores}
    (hr : Returns (dagLongestPaths ⟨g⟩ w start) scores) :
    ∃ sc, Returns (dagShortestPaths ⟨g⟩ (fun e => -(w e)) start) sc ∧ negateScores sc = .done scores ∧
      ∀ e, g.containsEdge e = true → Reach g start e.src → negI64 (w e) = .done (-(w e)) := by
  obtain ⟨n, hn⟩ := hr
  have := hn n (Nat.le_refl _)
  unfold dagLongestPaths at this
  rw [Prog.bind, Run.bind_eq_done] at this
  obtain ⟨sc, h1, h2⟩ := this
  have h3 := (dagShortestPathsWith_mono g _ start).returns h1
  obtain ⟨l, k1, k2, k3, _⟩ := dagShortestPathsWith_eq h ha (fun e => negI64 (w e)) (negI64_ne_running w) start
  obtain ⟨l', k1', k2', k3', _⟩ := dagShortestPaths_eq h ha (fun e => -(w e)) start
  cases k1.unique k1'
  obtain ⟨h4, h5⟩ := dagRun_weaken (w := fun e => -(w e)) (fun e x hx => by
    unfold negI64 at hx
    split at hx
    · cases hx; rfl
    · cases hx) ((k3 sc).1 h3)
  refine ⟨sc, (k3' sc).2 h4, h2, fun e he hre => ?_⟩
  exact h5 e.src ((order_suffix h.wf k2 start).2.1 _ hre ⟨e.dst, he⟩) e (h.wf.mem_outbound.2 ⟨he, rfl⟩)

/-- C42: when `dag_longest_paths` returns on an acyclic graph, its keys are exactly the vertices reachable from the start, and each entry
is a walk of maximum total weight carrying that weight. -/
theorem C42_dag_longest_paths (g : DirectedGraph) (h : Built g) (ha : Acyclic g) (w : WeightFn) (start : VertexId)
    (scores : Scores) (hr : Returns (dagLongestPaths ⟨g⟩ w start) scores) : HeaviestWalks g w start scores := by
  have hex : ∃ sc, Returns (dagShortestPaths ⟨g⟩ (fun e => -(w e)) start) sc ∧ negateScores sc = .done scores := by
    obtain ⟨sc, h1, h2, _⟩ := longest_inv h ha hr
    exact ⟨sc, h1, h2⟩
  obtain ⟨sc, h1, h2⟩ := hex
  obtain ⟨a1, a2, a3⟩ := C40_dag_shortest_paths g h ha _ start sc h1
  rw [negateScores_eq sc scores h2]
  have hk : (sc.map (fun p : VertexId × ScoredPath => (p.1, (⟨p.2.path, -p.2.score⟩ : ScoredPath)))).map Prod.fst = sc.map Prod.fst := by
    rw [List.map_map]; rfl
  refine ⟨by rw [hk]; exact a1, by rw [hk]; exact a2, ?_⟩
  intro v sp hm
  obtain ⟨⟨v', sp'⟩, hp, he⟩ := List.mem_map.1 hm
  cases he
  obtain ⟨b1, b2, b3⟩ := a3 v' sp' hp
  refine ⟨b1, ?_, ?_⟩
  · simp only [b2, walkWeight_neg]
    omega
  · intro l hl
    have := b3 l hl
    rw [walkWeight_neg] at this
    simp only
    omega

/-- C42: `dag_longest_path` is the entry of `dag_longest_paths` for the end vertex: `None` exactly if the end cannot be reached. -/
theorem C42_dag_longest_path (g : DirectedGraph) (h : Built g) (ha : Acyclic g) (w : WeightFn) (start end_ : VertexId)
    (scores : Scores) (hr : Returns (dagLongestPaths ⟨g⟩ w start) scores) :
    ∃ r, Returns (dagLongestPath ⟨g⟩ w start end_) r ∧ (r = none ↔ ¬ Reach g start end_) ∧
    ∀ sp, r = some sp → WalkFromTo g start end_ sp.path.vertices ∧ sp.score = walkWeight w sp.path.vertices ∧
      ∀ l, WalkFromTo g start end_ l → walkWeight w l ≤ sp.score := by
  obtain ⟨_, h2, h3⟩ := C42_dag_longest_paths g h ha w start scores hr
  refine ⟨HMap.get? scores end_, Returns.bind hr (Returns.ret _), ?_, ?_⟩
  · rw [HMap.get?_eq_none_iff, ← h2 end_]
    rfl
  · intro sp hsp
    exact h3 end_ sp (HMap.get?_mem hsp)

/-- Negated small weights are small. -/
theorem small_neg {g : DirectedGraph} {w : WeightFn} (hw : SmallWeights g w) : SmallWeights g (fun e => -(w e)) := by
  intro e he
  have := hw e he
  rwa [abs_neg]

theorem longest_run {g : DirectedGraph} (h : Built g) {w : WeightFn} (hw : SmallWeights g w) (start : VertexId) (l : List VertexId) :
    dagRun g (fun e => negI64 (w e)) start l = dagRun g (pureFn fun e => -(w e)) start l := by
  refine dagRun_congr h.wf ?_ l
  intro e he
  unfold negI64 pureFn
  refine if_pos ?_
  have h1 := hw e he
  have h2 : (1 : Int) ≤ g.vertexCount := by
    have := List.length_pos_of_mem (mem_vertices.2 (h.wf.src_mem he))
    have hv : g.vertices.length = g.vertexCount := by simp [vertexCount, vertices, HMap.keys]
    omega
  have h3 := neg_le_abs (w e)
  have h4 : |w e| ≤ |w e| * g.vertexCount := le_mul_of_one_le_right (abs_nonneg _) h2
  omega

theorem longest_of_shortest {g : DirectedGraph} (h : Built g) (ha : Acyclic g) {w : WeightFn} (hw : SmallWeights g w) {start : VertexId} {sc : Scores}
    (hsc : Returns (dagShortestPaths ⟨g⟩ (fun e => -(w e)) start) sc) : ∃ scores, Returns (dagLongestPaths ⟨g⟩ w start) scores := by
  have hw' := small_neg hw
  obtain ⟨l, _, h2, h3, _⟩ := dagShortestPaths_eq h ha (fun e => -(w e)) start
  have hlw := (C40_dag_shortest_paths g h ha _ start sc hsc).2.2
  obtain ⟨M, hM0, hM, hV⟩ := ShortestPath.SmallWeights.bound hw'
  obtain ⟨sc', hsc'⟩ := negateScores_done sc (by
    rintro ⟨v, sp⟩ hp
    obtain ⟨b1, b2, _⟩ := hlw v sp hp
    -- a walk in an acyclic graph has at most as many vertices as the graph
    have hnd : sp.path.vertices.Nodup := by
      by_contra c
      obtain ⟨x, hx⟩ := List.exists_duplicate_iff_not_nodup.2 c
      rw [List.duplicate_iff_sublist] at hx
      obtain ⟨l1, l2, l3, e⟩ : ∃ l1 l2 l3, sp.path.vertices = l1 ++ x :: l2 ++ x :: l3 := by
        obtain ⟨r1, r2, e1, h4, h5⟩ := List.cons_sublist_iff.1 hx
        obtain ⟨p, q, rfl⟩ := List.append_of_mem h4
        have h6 : x ∈ r2 := by simpa using h5
        obtain ⟨p', q', rfl⟩ := List.append_of_mem h6
        exact ⟨p, q ++ p', q', by rw [e1]; simp⟩
      rw [e, List.append_assoc] at b1
      have b4 : WalkFromTo g x v ((x :: l2) ++ x :: l3) := by
        have := b1.split.2
        simpa using this
      have b5 := b4.split.1
      rcases b5.snoc_cases with ⟨b6, _⟩ | ⟨u, l', _, b7, b8⟩
      · have := congrArg List.length b6
        simp at this
      · exact ha x (Relation.TransGen.tail' b7.reach b8)
    simp only
    rw [b2]
    have hab := walkWeight_abs hM b1.1 b1.ne_nil
    rcases hL : sp.path.vertices with _ | ⟨y, _ | ⟨z, t⟩⟩
    · exact absurd hL b1.ne_nil
    · simp [walkWeight]
    · have hyz : Adj g y z := by
        have := b1.1
        rw [hL, List.isChain_cons_cons] at this
        exact this.1
      have hys : y = start := by
        have := b1.2.1
        rw [hL] at this
        simpa using this
      have hlen : sp.path.vertices.length ≤ g.vertices.length :=
        (hnd.subperm fun q hq => mem_vertices.2 (reach_vertex h.wf (hys ▸ .refl) hyz (b1.mem_reach hq))).length_le
      have hv : g.vertices.length = g.vertexCount := by simp [vertexCount, vertices, HMap.keys]
      have hlen' : (sp.path.vertices.length : Int) ≤ g.vertexCount := by exact_mod_cast hv ▸ hlen
      rw [← hL]
      have := (abs_le.1 hab).1
      nlinarith)
  have hsc2 : Returns (dagShortestPathsWith ⟨g⟩ (fun e => negI64 (w e)) start) sc := by
    obtain ⟨l', k1, _, k3, _⟩ := dagShortestPathsWith_eq h ha (fun e => negI64 (w e)) (negI64_ne_running w) start
    obtain ⟨l'', k1', _, k3', _⟩ := dagShortestPaths_eq h ha (fun e => -(w e)) start
    cases k1.unique k1'
    rw [k3, longest_run h hw]
    exact (k3' sc).1 hsc
  exact ⟨sc', Returns.bind hsc2 (by rw [hsc']; exact Returns.lift_done _)⟩

/-- C42, exact condition: on an acyclic graph with small weights `dag_longest_paths` panics if and only if some vertex after the start in
the topological order has an outgoing edge and cannot be reached from the start; otherwise it returns. -/
theorem C42_panics_iff (g : DirectedGraph) (h : Built g) (ha : Acyclic g) (w : WeightFn) (hw : SmallWeights g w) (start : VertexId) :
    ∃ order, Returns (topologicalSort g) (some order) ∧
      (Panics (dagLongestPaths ⟨g⟩ w start) ↔ ∃ u, Before order start u ∧ (∃ v, Adj g u v) ∧ ¬ Reach g start u) ∧
      ((∃ scores, Returns (dagLongestPaths ⟨g⟩ w start) scores) ∨ Panics (dagLongestPaths ⟨g⟩ w start)) := by
  obtain ⟨order, h1, h2, h3⟩ := C41_panics_iff g h ha _ (small_neg hw) start
  have key : Panics (dagShortestPaths ⟨g⟩ (fun e => -(w e)) start) → Panics (dagLongestPaths ⟨g⟩ w start) := by
    intro hp
    obtain ⟨l', k1, _, _, k4⟩ := dagShortestPathsWith_eq h ha (fun e => negI64 (w e)) (negI64_ne_running w) start
    obtain ⟨l'', k1', _, _, k4'⟩ := dagShortestPaths_eq h ha (fun e => -(w e)) start
    cases k1.unique k1'
    refine Panics.bind_left ?_
    rw [k4, longest_run h hw]
    exact k4'.1 hp
  refine ⟨order, h1, ?_, ?_⟩
  · rw [← h2]
    refine ⟨fun hp => ?_, key⟩
    rcases h3 with ⟨sc, h3⟩ | h3
    · obtain ⟨sc', h4⟩ := longest_of_shortest h ha hw h3
      exact absurd hp h4.not_panics
    · exact h3
  · rcases h3 with ⟨sc, h3⟩ | h3
    · exact .inl (longest_of_shortest h ha hw h3)
    · exact .inr (key h3)

example : Built exTwoEdges ∧ Acyclic exTwoEdges ∧ SmallWeights exTwoEdges (fun _ => 1) ∧
    dagLongestPaths ⟨exTwoEdges⟩ (fun _ => 1) 1 6 = .panicked := by
  have hb : Built exTwoEdges := Built.new.applyCommands _
  refine ⟨hb, acyclic_of_check hb [1, 2, 3, 4] (by decide), fun e _ => ?_, by decide⟩
  have : exTwoEdges.vertexCount = 4 := by decide
  rw [this]
  norm_num

/-- C42: with small weights `dag_longest_paths` returns whenever `dag_shortest_paths` does (the panic of C41 is the only one). -/
theorem C42_returns (g : DirectedGraph) (h : Built g) (ha : Acyclic g) (w : WeightFn) (hw : SmallWeights g w) (start : VertexId)
    (hreach : ∀ u v, Adj g u v → Reach g start u) : ∃ scores, Returns (dagLongestPaths ⟨g⟩ w start) scores := by
  obtain ⟨sc, hsc⟩ := C41_returns_partial g h ha _ (small_neg hw) start hreach
  exact longest_of_shortest h ha hw hsc

/-- C42: a weight `i64::MIN` on an edge that leaves a vertex reachable from the start makes `dag_longest_paths` panic, because the weights
are negated. -/
theorem C42_min_weight_panics (g : DirectedGraph) (h : Built g) (ha : Acyclic g) (w : WeightFn) (start : VertexId) (e : Edge)
    (he : g.containsEdge e = true) (hre : Reach g start e.src) (hmin : w e = -2 ^ 63) : Panics (dagLongestPaths ⟨g⟩ w start) := by
  obtain ⟨l, k1, k2, k3, k4⟩ := dagShortestPathsWith_eq h ha (fun e => negI64 (w e)) (negI64_ne_running w) start
  refine Panics.bind_left ?_
  rw [k4]
  cases hd : dagRun g (fun e => negI64 (w e)) start l with
  | running => exact absurd hd (dagRun_not_running (negI64_ne_running w) l)
  | panicked => rfl
  | done sc =>
    obtain ⟨_, h5⟩ := dagRun_weaken (w := fun e => -(w e)) (fun e x hx => by
      unfold negI64 at hx
      split at hx
      · cases hx; rfl
      · cases hx) hd
    have := h5 e.src ((order_suffix h.wf k2 start).2.1 _ hre ⟨e.dst, he⟩) e (h.wf.mem_outbound.2 ⟨he, rfl⟩)
    unfold negI64 at this
    rw [if_neg (by rw [hmin]; decide)] at this
    cases this

example : dagLongestPaths ⟨exWeighted⟩ (fun e => if e = ⟨2, 4⟩ then -2 ^ 63 else exWeights e) 1 10 = .panicked := by decide
example : Reach exWeighted 1 2 := .single (by unfold Adj; decide)

example : dagLongestPaths ⟨exWeighted⟩ exWeights 1 10 =
      .done [(1, ⟨⟨[1]⟩, 0⟩), (2, ⟨⟨[1, 2]⟩, 4⟩), (3, ⟨⟨[1, 3]⟩, 1⟩), (4, ⟨⟨[1, 2, 4]⟩, 7⟩)] := by decide

/-! ### C43 and C44 -/

theorem bounds_of_small {g : DirectedGraph} {w : WeightFn} (h : SmallWeights g w) : ∃ M, Bounds g w M := by
  obtain ⟨M, h1, h2, h3⟩ := ShortestPath.SmallWeights.bound h
  exact ⟨M, h1, h2, h3⟩

/-- C43: when `bellman_ford` returns `Some`, the keys are exactly the vertices reachable from the start and each entry is a walk of
minimum total weight carrying that weight. -/
theorem C43_bellman_ford_exact (g : DirectedGraph) (h : Built g) (w : WeightFn) (hw : SmallWeights g w) (start : VertexId)
    (scores : Scores) (hr : bellmanFord g w start = .done (some scores)) : LightestWalks g w start scores := by
  obtain ⟨M, hb⟩ := bounds_of_small hw
  exact ((bellmanFord_correct h.wf hb hr).1 scores rfl).1

/-- C43: if no cycle of negative weight can be reached from the start, `bellman_ford` returns the map of lightest walks. -/
theorem C43_bellman_ford_returns (g : DirectedGraph) (h : Built g) (w : WeightFn) (hw : SmallWeights g w) (start : VertexId)
    (hn : ¬ NegativeCycle g w start) : ∃ scores, bellmanFord g w start = .done (some scores) ∧ LightestWalks g w start scores := by
  obtain ⟨M, hb⟩ := bounds_of_small hw
  obtain ⟨r, hr⟩ := bellmanFord_done h.wf hb hn
  have hc := bellmanFord_correct h.wf hb hr
  cases r with
  | none => exact absurd (hc.2 rfl) hn
  | some sc => exact ⟨sc, hr, (hc.1 sc rfl).1⟩

/-- The bound on the weights is needed: an edge of weight `i64::MAX` is not followed, although no sum overflows. -/
theorem C43_max_weight_is_lost :
    bellmanFord (GraphCommand.applyCommands [.AddEdge 1 2] .new) (fun _ => i64Max) 1 = .done (some [(1, ⟨⟨[1]⟩, 0⟩)]) := by decide

example : bellmanFord exWeighted exWeights 1 =
      .done (some [(1, ⟨⟨[1]⟩, 0⟩), (2, ⟨⟨[1, 3, 2]⟩, -1⟩), (3, ⟨⟨[1, 3]⟩, 1⟩), (4, ⟨⟨[1, 3, 2, 4]⟩, 2⟩)]) := by decide

/-- C44: when `bellman_ford` returns, it returns `None` exactly if a cycle of negative weight can be reached from the start. -/
theorem C44_none_iff_negative_cycle (g : DirectedGraph) (h : Built g) (w : WeightFn) (hw : SmallWeights g w) (start : VertexId)
    (r : Option Scores) (hr : bellmanFord g w start = .done r) : r = none ↔ NegativeCycle g w start := by
  obtain ⟨M, hb⟩ := bounds_of_small hw
  have hc := bellmanFord_correct h.wf hb hr
  refine ⟨hc.2, fun hn => ?_⟩
  cases r with
  | none => rfl
  | some sc => exact absurd hn (hc.1 sc rfl).2

/-- C44: `bellman_ford` returns (and so detects negative cycles) if `|w e| · (|V|·|E| + 1) < i64::MAX` for every edge `e`. -/
theorem C44_returns (g : DirectedGraph) (h : Built g) (w : WeightFn) (start : VertexId)
    (hw : ∀ e, g.containsEdge e = true → |w e| * (g.vertexCount * g.edges.length + 1) < 2 ^ 63 - 1) :
    ∃ r, bellmanFord g w start = .done r ∧ (r = none ↔ NegativeCycle g w start) := by
  have hv0 : (0 : Int) ≤ g.vertexCount := by positivity
  have hfin : ∀ M, Bounds g w M → ((g.vertexCount : Int) * g.edges.length + 1) * M < 2 ^ 63 →
      ∃ r, bellmanFord g w start = .done r ∧ (r = none ↔ NegativeCycle g w start) := by
    intro M hb hM
    obtain ⟨r, hr⟩ := bellmanFord_done' (s := start) h.wf hb hM
    have hc := bellmanFord_correct h.wf hb hr
    refine ⟨r, hr, hc.2, fun hn => ?_⟩
    cases r with
    | none => rfl
    | some sc => exact absurd hn (hc.1 sc rfl).2
  by_cases hE : g.edges = []
  · refine hfin 0 ⟨Int.le_refl _, ?_, by norm_num⟩ (by norm_num)
    intro e he
    have := h.wf.mem_edges.2 he
    rw [hE] at this
    simp at this
  · have hE1 : (1 : Int) ≤ g.edges.length := by
      have := List.length_pos_of_ne_nil hE
      omega
    have hle := mul_le_mul_of_nonneg_left hE1 hv0
    have hpos : (0 : Int) < (g.vertexCount : Int) * g.edges.length + 1 := by positivity
    have hdiv := Int.ediv_mul_le (2 ^ 63 - 2) (Int.ne_of_gt hpos)
    have h0 : (0 : Int) ≤ (2 ^ 63 - 2) / ((g.vertexCount : Int) * g.edges.length + 1) := Int.ediv_nonneg (by norm_num) (by omega)
    refine hfin _ ⟨h0, ?_, ?_⟩ ?_
    · intro e he
      rw [Int.le_ediv_iff_mul_le hpos]
      have := hw e he
      omega
    · have := mul_le_mul_of_nonneg_left (show (g.vertexCount : Int) ≤ g.vertexCount * g.edges.length + 1 by linarith) h0
      linarith
    · rw [mul_comm]
      linarith

/-- Example: 1→2 (1), 2→3 (-2), 3→2 (1), 4→1 (0). -/
def exNegative : DirectedGraph :=
  GraphCommand.applyCommands [.AddEdge 1 2, .AddEdge 2 3, .AddEdge 3 2, .AddEdge 4 1] .new

/-- Weights for `exNegative`. -/
def exNegWeights : WeightFn := fun e => if e = ⟨2, 3⟩ then -2 else if e = ⟨4, 1⟩ then 0 else 1

theorem exNegative_small : SmallWeights exNegative exNegWeights := by
  have : ∀ e ∈ exNegative.edges, |exNegWeights e| * (exNegative.vertexCount : Int) < 2 ^ 63 - 1 := by decide
  intro e he
  exact this e ((Built.new.applyCommands _).wf.mem_edges.2 he)

theorem exNegative_cycle : NegativeCycle exNegative exNegWeights 1 := by
  refine ⟨2, [2, 3, 2], .single (by unfold Adj; decide), ⟨?_, rfl, rfl⟩, by decide⟩
  simp only [List.isChain_cons_cons, List.isChain_singleton, and_true]
  exact ⟨by unfold Adj; decide, by unfold Adj; decide⟩

example : Built exNegative ∧ NegativeCycle exNegative exNegWeights 1 ∧ bellmanFord exNegative exNegWeights 1 = .done none ∧
    (∀ e ∈ exNegative.edges, |exNegWeights e| * ((exNegative.vertexCount : Int) * exNegative.edges.length + 1) < 2 ^ 63 - 1) :=
  ⟨Built.new.applyCommands _, exNegative_cycle, by decide, by decide⟩

/-! ### C45 -/

/-- C45: `spfa` returns if and only if no cycle of negative weight can be reached from the start, and then its result is the map of
lightest walks. -/
theorem C45_spfa_returns_iff (g : DirectedGraph) (h : Built g) (w : WeightFn) (hw : SmallWeights g w) (start : VertexId) :
    ((∃ scores, Returns (spfa g w start) scores) ↔ ¬ NegativeCycle g w start) ∧
    ∀ scores, Returns (spfa g w start) scores → LightestWalks g w start scores := by
  obtain ⟨M, hb⟩ := bounds_of_small hw
  rcases spfa_ends (s := start) h.wf hb with ⟨sc, h1, h2, h3⟩ | h1
  · refine ⟨⟨fun _ => h3, fun _ => ⟨sc, h1⟩⟩, fun sc' h' => ?_⟩
    rw [h'.unique h1]
    exact h2
  · refine ⟨⟨?_, fun hn => absurd h1 (spfa_not_panics h.wf hb hn)⟩, fun sc' h' => absurd h1 h'.not_panics⟩
    rintro ⟨sc', h'⟩
    exact absurd h1 h'.not_panics

/-- C45: with a reachable negative cycle `spfa` lowers scores until an addition overflows (with overflow checks it then panics). -/
theorem C45_spfa_negative_cycle (g : DirectedGraph) (h : Built g) (w : WeightFn) (hw : SmallWeights g w) (start : VertexId)
    (hn : NegativeCycle g w start) : Panics (spfa g w start) := by
  obtain ⟨M, hb⟩ := bounds_of_small hw
  rcases spfa_ends (s := start) h.wf hb with ⟨sc, h1, h2, h3⟩ | h1
  · exact absurd hn h3
  · exact h1

example : spfa exWeighted exWeights 1 10 =
      .done [(1, ⟨⟨[1]⟩, 0⟩), (2, ⟨⟨[1, 3, 2]⟩, -1⟩), (3, ⟨⟨[1, 3]⟩, 1⟩), (4, ⟨⟨[1, 3, 2, 4]⟩, 2⟩)] ∧
    SmallWeights exNegative exNegWeights ∧ NegativeCycle exNegative exNegWeights 1 :=
  ⟨by decide, exNegative_small, exNegative_cycle⟩

/-! ### C46 -/

/-- Two maps of lightest walks have the same keys and the same scores. -/
theorem lightest_unique {g : DirectedGraph} {w : WeightFn} {s : VertexId} {sc sc' : Scores} (h : LightestWalks g w s sc)
    (h' : LightestWalks g w s sc') (v : VertexId) :
    (HMap.get? sc v).map ScoredPath.score = (HMap.get? sc' v).map ScoredPath.score := by
  obtain ⟨_, a2, a3⟩ := h
  obtain ⟨_, b2, b3⟩ := h'
  have ha : (HMap.get? sc v).isSome = true ↔ Reach g s v := HMap.get?_isSome_iff.trans (a2 v)
  have hb : (HMap.get? sc' v).isSome = true ↔ Reach g s v := HMap.get?_isSome_iff.trans (b2 v)
  cases hx : HMap.get? sc v with
  | none =>
    cases hy : HMap.get? sc' v with
    | none => rfl
    | some q =>
      rw [hx] at ha
      rw [hy] at hb
      exact absurd (ha.2 (hb.1 rfl)) (by simp)
  | some p =>
    cases hy : HMap.get? sc' v with
    | none =>
      rw [hx] at ha
      rw [hy] at hb
      exact absurd (hb.2 (ha.1 rfl)) (by simp)
    | some q =>
      obtain ⟨c1, c2, c3⟩ := a3 v p (HMap.get?_mem hx)
      obtain ⟨d1, d2, d3⟩ := b3 v q (HMap.get?_mem hy)
      have e1 := c3 _ d1
      have e2 := d3 _ c1
      simp only [Option.map_some, Option.some.injEq]
      omega

/-- C46: `bellman_ford` and `spfa` agree: `spfa` returns exactly when `bellman_ford` does not answer `None`, and then they report the
same vertices with the same scores. -/
theorem C46_bellman_ford_spfa (g : DirectedGraph) (h : Built g) (w : WeightFn) (hw : SmallWeights g w) (start : VertexId)
    (r : Option Scores) (hr : bellmanFord g w start = .done r) :
    (r = none ↔ ¬ ∃ sc, Returns (spfa g w start) sc) ∧
    ∀ sc sc', r = some sc → Returns (spfa g w start) sc' →
      ∀ v, (HMap.get? sc v).map ScoredPath.score = (HMap.get? sc' v).map ScoredPath.score := by
  obtain ⟨h1, h2⟩ := C45_spfa_returns_iff g h w hw start
  refine ⟨?_, ?_⟩
  · rw [C44_none_iff_negative_cycle g h w hw start r hr, h1, not_not]
  · rintro sc sc' rfl hs
    exact lightest_unique (C43_bellman_ford_exact g h w hw start sc hr) (h2 sc' hs)

/-- C46: on acyclic graphs `bellman_ford` and `spfa` return, and agree with `dag_shortest_paths` whenever that returns. -/
theorem C46_dag_bellman_ford_spfa (g : DirectedGraph) (h : Built g) (ha : Acyclic g) (w : WeightFn) (hw : SmallWeights g w)
    (start : VertexId) :
    ∃ bf sp, bellmanFord g w start = .done (some bf) ∧ Returns (spfa g w start) sp ∧
      ∀ dag, Returns (dagShortestPaths ⟨g⟩ w start) dag →
        ∀ v, (HMap.get? dag v).map ScoredPath.score = (HMap.get? bf v).map ScoredPath.score ∧
          (HMap.get? dag v).map ScoredPath.score = (HMap.get? sp v).map ScoredPath.score := by
  have hn := noNegativeCycle_of_acyclic (w := w) (s := start) ha
  obtain ⟨bf, h1, h2⟩ := C43_bellman_ford_returns g h w hw start hn
  obtain ⟨h3, h4⟩ := C45_spfa_returns_iff g h w hw start
  obtain ⟨sp, h5⟩ := h3.2 hn
  refine ⟨bf, sp, h1, h5, fun dag hd v => ?_⟩
  have hl := C40_dag_shortest_paths g h ha w start dag hd
  exact ⟨lightest_unique hl h2 v, lightest_unique hl (h4 sp h5) v⟩

theorem walkWeight_unit (l : List VertexId) (h : l ≠ []) : walkWeight (fun _ => 1) l = (l.length : Int) - 1 := by
  induction l with
  | nil => exact absurd rfl h
  | cons a l ih =>
    cases l with
    | nil => simp [walkWeight]
    | cons b l =>
      simp only [walkWeight]
      rw [ih (by simp)]
      simp only [List.length_cons]
      push_cast
      omega

/-- C46: with unit weights `bellman_ford` reports for every vertex the cost that the search of gc-short-path finds, and nothing exactly
where that finds no path. -/
theorem C46_unit_weights_short_path (H : ScoredHeap) (g : DirectedGraph) (h : Built g) (hsize : g.vertexCount < 2 ^ 63 - 1)
    (start end_ : VertexId) :
    ∃ sc r, bellmanFord g (fun _ => 1) start = .done (some sc) ∧ Returns (AStar.gcShortPath H g start end_) r ∧
      (HMap.get? sc end_).map ScoredPath.score = r.map ScoredPath.score := by
  have hw : SmallWeights g (fun _ => 1) := by
    intro e _
    have : (g.vertexCount : Int) < 2 ^ 63 - 1 := by omega
    simpa using this
  have hn : ¬ NegativeCycle g (fun _ => 1) start := by
    rintro ⟨v, c, _, h2, h3⟩
    rw [walkWeight_unit c h2.ne_nil] at h3
    have := List.length_pos_of_ne_nil h2.ne_nil
    omega
  obtain ⟨sc, h1, h2, h3, h4⟩ := C43_bellman_ford_returns g h _ hw start hn
  obtain ⟨r, h5, h6, h7⟩ := C33_short_path_optimal H g h (by omega) start end_
  refine ⟨sc, r, h1, h5, ?_⟩
  have hk : (HMap.get? sc end_).isSome = true ↔ Reach g start end_ := HMap.get?_isSome_iff.trans (h3 end_)
  cases hx : HMap.get? sc end_ with
  | none =>
    rw [hx] at hk
    have : r = none := h6.2 (fun c => absurd (hk.2 c) (by simp))
    rw [this]
  | some p =>
    rw [hx] at hk
    cases r with
    | none => exact absurd (hk.1 rfl) (h6.1 rfl)
    | some q =>
      obtain ⟨c1, c2, c3⟩ := h4 end_ p (HMap.get?_mem hx)
      obtain ⟨d1, _, d2, d3⟩ := h7 q rfl
      have e1 := c3 _ d1
      have e2 := d3 _ c1
      rw [walkWeight_unit _ d1.ne_nil] at e1
      rw [walkWeight_unit _ c1.ne_nil] at c2
      simp only [Option.map_some, Option.some.injEq]
      omega

/-- `C46_unit_weights_short_path` for the graph `exWeighted`. -/
example (H : ScoredHeap) := C46_unit_weights_short_path H exWeighted exWeighted_built (by decide) 1 4

theorem exWeighted_reach : ∀ u v, Adj exWeighted u v → Reach exWeighted 1 u := by
  intro u v huv
  have h1 := exWeighted_built.wf.mem_edges.2 huv
  have h2 : ∀ e ∈ exWeighted.edges, e.src = 1 ∨ exWeighted.containsEdge ⟨1, e.src⟩ = true := by decide
  rcases h2 _ h1 with h3 | h3
  · rw [show u = 1 from h3]; exact .refl
  · exact .single h3

theorem exWeighted_small : SmallWeights exWeighted exWeights := by
  intro e he
  exact (by decide : ∀ e ∈ exWeighted.edges, |exWeights e| * (exWeighted.vertexCount : Int) < 2 ^ 63 - 1) e
    (exWeighted_built.wf.mem_edges.2 he)

/-- `exWeighted` meets the hypotheses of C40 to C46: `C40_dag_shortest_paths`, `C40_dag_shortest_path`, `C41_panics_iff`, `C41_returns_partial`,
`C42_dag_longest_paths`, `C42_dag_longest_path`, `C42_returns`, `C43_bellman_ford_exact`, `C43_bellman_ford_returns`, `C44_none_iff_negative_cycle`,
`C44_returns`, `C45_spfa_returns_iff`, `C46_bellman_ford_spfa`, `C46_dag_bellman_ford_spfa`. -/
example : (∃ sc, Returns (dagShortestPaths ⟨exWeighted⟩ exWeights 1) sc ∧ LightestWalks exWeighted exWeights 1 sc) ∧
    (∃ sc, Returns (dagLongestPaths ⟨exWeighted⟩ exWeights 1) sc ∧ HeaviestWalks exWeighted exWeights 1 sc ∧
      ∃ r, Returns (dagLongestPath ⟨exWeighted⟩ exWeights 1 4) r ∧ (r = none ↔ ¬ Reach exWeighted 1 4)) ∧
    ¬ NegativeCycle exWeighted exWeights 1 ∧
    (∃ sc, bellmanFord exWeighted exWeights 1 = .done (some sc) ∧ LightestWalks exWeighted exWeights 1 sc) ∧
    (∃ sc, Returns (spfa exWeighted exWeights 1) sc ∧ LightestWalks exWeighted exWeights 1 sc) := by
  have hb := exWeighted_built
  have ha := exWeighted_acyclic
  have hw := exWeighted_small
  have hbf : bellmanFord exWeighted exWeights 1 = .done (some [(1, ⟨⟨[1]⟩, 0⟩), (2, ⟨⟨[1, 3, 2]⟩, -1⟩), (3, ⟨⟨[1, 3]⟩, 1⟩),
      (4, ⟨⟨[1, 3, 2, 4]⟩, 2⟩)]) := by decide +kernel
  obtain ⟨sc, h1⟩ := C41_returns_partial exWeighted hb ha exWeights hw 1 exWeighted_reach
  obtain ⟨sl, h2⟩ := C42_returns exWeighted hb ha exWeights hw 1 exWeighted_reach
  obtain ⟨r, h3, h4, _⟩ := C42_dag_longest_path exWeighted hb ha exWeights 1 4 sl h2
  have hn : ¬ NegativeCycle exWeighted exWeights 1 := fun hn => by
    cases (C44_none_iff_negative_cycle exWeighted hb exWeights hw 1 _ hbf).2 hn
  have h5 := C45_spfa_returns_iff exWeighted hb exWeights hw 1
  obtain ⟨ss, h6⟩ := h5.1.2 hn
  exact ⟨⟨sc, h1, C40_dag_shortest_paths exWeighted hb ha exWeights 1 sc h1⟩,
    ⟨sl, h2, C42_dag_longest_paths exWeighted hb ha exWeights 1 sl h2, r, h3, h4⟩, hn,
    ⟨_, hbf, C43_bellman_ford_exact exWeighted hb exWeights hw 1 _ hbf⟩, ss, h6, h5.2 ss h6⟩

/-- `C45_spfa_negative_cycle` and `C44_none_iff_negative_cycle` for a graph with a negative cycle; `C42_min_weight_panics`. -/
example : Panics (spfa exNegative exNegWeights 1) ∧ (∀ r, bellmanFord exNegative exNegWeights 1 = .done r → r = none) ∧
    Panics (dagLongestPaths ⟨exWeighted⟩ (fun e => if e = ⟨2, 4⟩ then -2 ^ 63 else exWeights e) 1) := by
  have hb : Built exNegative := Built.new.applyCommands _
  exact ⟨C45_spfa_negative_cycle exNegative hb exNegWeights exNegative_small 1 exNegative_cycle,
    fun r hr => (C44_none_iff_negative_cycle exNegative hb exNegWeights exNegative_small 1 r hr).2 exNegative_cycle,
    C42_min_weight_panics exWeighted exWeighted_built exWeighted_acyclic _ 1 ⟨2, 4⟩ (by decide)
      (.single (by unfold Adj; decide)) (by decide)⟩

example : Built exWeighted ∧ exWeighted.vertexCount < 2 ^ 63 - 1 ∧
    bellmanFord exWeighted (fun _ => 1) 1 =
      .done (some [(1, ⟨⟨[1]⟩, 0⟩), (2, ⟨⟨[1, 2]⟩, 1⟩), (3, ⟨⟨[1, 3]⟩, 1⟩), (4, ⟨⟨[1, 2, 4]⟩, 2⟩)]) :=
  ⟨exWeighted_built, by decide, by decide⟩

end GC
