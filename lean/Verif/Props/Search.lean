/-
Properties C31-C37: constrained iteration and path search.
-/
import Verif.Proofs.Constrained
import Verif.Props.Iter
import Mathlib.Tactic.Positivity
namespace GC
open DirectedGraph

/-! ### C31 -/

/-- C31: at any moment of the iteration of `constrained_best_iter_from`, the items yielded so far are walks from the start that partial
checking did not prune, with their scores, and none was yielded twice. -/
theorem C31_stream_sound (H : ScoredHeap) (g : DirectedGraph) (h : Built g) (scorefn : ScoreFn) (cs : List Constraint) (start : VertexId)
    (it it' : ConstrainedBestFirstIter H) (out : List ScoredPath) (h0 : ConstrainedBestFirstIter.from_ g scorefn start = .done it)
    (hr : IterRun (ConstrainedBestFirstIter.next g scorefn cs) it out it') :
    out.Nodup ∧ ∀ sp ∈ out, Unpruned g scorefn cs start sp := by
  have hi := cinv_run h.wf h0 hr
  exact ⟨(List.nodup_append.1 hi.nodup).1, fun sp hsp => hi.node sp (by simp [hsp])⟩

/-- C31: for monotone scores the items come in order of non-decreasing score. -/
theorem C31_stream_sorted (H : ScoredHeap) (g : DirectedGraph) (h : Built g) (scorefn : ScoreFn) (cs : List Constraint) (start : VertexId)
    (hm : MonotoneScore g scorefn start) (it it' : ConstrainedBestFirstIter H) (out : List ScoredPath)
    (h0 : ConstrainedBestFirstIter.from_ g scorefn start = .done it)
    (hr : IterRun (ConstrainedBestFirstIter.next g scorefn cs) it out it')
    (i j : Nat) (p q : ScoredPath) (hij : i < j) (hi : out[i]? = some p) (hj : out[j]? = some q) : p.score ≤ q.score := by
  have hs := (sorted_run h.wf hm h0 hr).sorted
  obtain ⟨hi1, rfl⟩ := List.getElem?_eq_some_iff.1 hi
  obtain ⟨hj1, rfl⟩ := List.getElem?_eq_some_iff.1 hj
  exact List.pairwise_iff_getElem.1 hs i j hi1 hj1 hij

/-- C31: when the iteration ends, every unpruned walk was yielded. -/
theorem C31_stream_complete (H : ScoredHeap) (g : DirectedGraph) (h : Built g) (scorefn : ScoreFn) (cs : List Constraint) (start : VertexId)
    (it it' : ConstrainedBestFirstIter H) (out : List ScoredPath) (h0 : ConstrainedBestFirstIter.from_ g scorefn start = .done it)
    (hr : IterRun (ConstrainedBestFirstIter.next g scorefn cs) it out it')
    (hend : Returns (ConstrainedBestFirstIter.next g scorefn cs it') none) (sp : ScoredPath) (hsp : Unpruned g scorefn cs start sp) :
    sp ∈ out := by
  have hi := cinv_run h.wf h0 hr
  rw [ConstrainedBestFirstIter.next_none_inv hend] at hi
  rcases hi.ancestor hsp with h1 | ⟨y, hy, _⟩
  · exact h1
  · cases hy

/-- C31: an unpruned walk is not skipped for ever: if at most `N` different unpruned walks have a score that is not larger, it is among
the first `N` items yielded. -/
theorem C31_stream_fair (H : ScoredHeap) (g : DirectedGraph) (h : Built g) (scorefn : ScoreFn) (cs : List Constraint) (start : VertexId)
    (hm : MonotoneScore g scorefn start) (sp : ScoredPath) (hsp : Unpruned g scorefn cs start sp) (N : Nat)
    (hN : ∀ l : List ScoredPath, l.Nodup → (∀ x ∈ l, Unpruned g scorefn cs start x ∧ x.score ≤ sp.score) → l.length ≤ N)
    (it it' : ConstrainedBestFirstIter H) (out : List ScoredPath)
    (h0 : ConstrainedBestFirstIter.from_ g scorefn start = .done it)
    (hr : IterRun (ConstrainedBestFirstIter.next g scorefn cs) it out it') (hlen : N ≤ out.length) : sp ∈ out := by
  by_contra hn
  have hi := cinv_run h.wf h0 hr
  have hs := sorted_run h.wf hm h0 hr
  obtain ⟨y, hy, hle, hall⟩ := done_le_of_missing hm hi hs hsp hn
  have := hN (sp :: out) (by
    rw [List.nodup_cons]
    exact ⟨hn, (List.nodup_append.1 hi.nodup).1⟩) (by
    intro x hx
    rcases List.mem_cons.1 hx with rfl | hx
    · exact ⟨hsp, Int.le_refl _⟩
    · exact ⟨hi.node x (by simp [hx]), hall x hx⟩)
  simp only [List.length_cons] at this
  omega

/-- C31: the iteration does not get stuck: it panics only where the scoring closure does. Whenever all the one-step extensions of the
yielded and waiting walks have scores, there is a next item or the iteration is over. -/
theorem C31_stream_progress (H : ScoredHeap) (g : DirectedGraph) (h : Built g) (scorefn : ScoreFn) (cs : List Constraint) (start : VertexId)
    (it it' : ConstrainedBestFirstIter H) (out : List ScoredPath) (h0 : ConstrainedBestFirstIter.from_ g scorefn start = .done it)
    (hr : IterRun (ConstrainedBestFirstIter.next g scorefn cs) it out it')
    (hs : ∀ sp v, Unpruned g scorefn cs start sp → WalkFrom g start (sp.path.vertices ++ [v]) →
      ∃ sc, scorefn g (sp.path.append v) = .done sc) :
    Returns (ConstrainedBestFirstIter.next g scorefn cs it') none ∨
    ∃ sp it'', Returns (ConstrainedBestFirstIter.next g scorefn cs it') (some (sp, it'')) := by
  have hi := cinv_run h.wf h0 hr
  by_cases he : it'.queue.items = []
  · exact .inl (ConstrainedBestFirstIter.next_none he)
  · right
    obtain ⟨x, s', _, h1⟩ := ConstrainedBestFirstIter.next_some (g := g) (scorefn := scorefn) (cs := cs) he (by
      intro x hx _
      have hx := hi.node x (by simp [hx])
      cases hl : x.path.vertices.getLast? with
      | none =>
        have := List.getLast?_eq_none_iff.1 hl
        have h2 := hx.1.2
        rw [this] at h2
        cases h2
      | some u =>
        refine ⟨u, rfl, ?_⟩
        intro v hv
        refine hs x v hx ⟨?_, ?_⟩
        · rw [List.isChain_append]
          refine ⟨hx.1.1, by simp, ?_⟩
          intro a ha b hb
          rw [hl] at ha
          simp only [List.head?_cons, Option.mem_def, Option.some.injEq] at ha hb
          subst ha hb
          exact h.wf.mem_outs'.1 hv
        · rw [List.head?_append, hx.1.2]; rfl)
    exact ⟨x, s', h1⟩

theorem oneWeightedEdge_eq (g : DirectedGraph) (p : Path) (hne : p.vertices ≠ []) :
    AStar.oneWeightedEdge g p =
      if p.vertices.length ≤ 2 ^ 63 then .done ((p.vertices.length : Int) - 1) else .panicked := by
  have hpl : p.vertices.length ≠ 0 := fun e => hne (List.length_eq_zero_iff.1 e)
  have hs : p.size = p.vertices.length := rfl
  unfold AStar.oneWeightedEdge
  rw [hs, if_neg hpl]
  by_cases h1 : p.vertices.length ≤ 2 ^ 63
  · rw [if_pos (by omega), if_pos h1]
    congr 1
    omega
  · rw [if_neg (by omega), if_neg h1]

/-- The score of gc-short-path and gc-csp is the number of edges, as long as it is an `i64`. -/
theorem unit_score (g : DirectedGraph) (p : Path) (hne : p.vertices ≠ []) :
    AStar.sumScore AStar.oneWeightedEdge AStar.zeroHeuristic g p =
      if p.vertices.length ≤ 2 ^ 63 then .done ((p.vertices.length : Int) - 1) else .panicked := by
  unfold AStar.sumScore
  rw [oneWeightedEdge_eq g p hne]
  have hpl : p.vertices.length ≠ 0 := fun e => hne (List.length_eq_zero_iff.1 e)
  by_cases h1 : p.vertices.length ≤ 2 ^ 63
  · rw [if_pos h1, Run.bind_done]
    unfold AStar.zeroHeuristic addI64
    rw [Run.bind_done, if_pos (by omega)]
    congr 1
    omega
  · rw [if_neg h1]; rfl

/-- Unit weights are monotone. -/
theorem monotone_unit (g : DirectedGraph) (start : VertexId) :
    MonotoneScore g (AStar.sumScore AStar.oneWeightedEdge AStar.zeroHeuristic) start := by
  intro p v b hp _ hb
  rw [unit_score g _ (by simp [Path.append])] at hb
  rw [unit_score g p hp]
  simp only [Path.append, List.length_append, List.length_singleton] at hb
  split at hb
  · cases hb
    rw [if_pos (by omega)]
    exact ⟨_, rfl, by omega⟩
  · cases hb

/-- The stream used as the example of C31: all walks from 2 that avoid vertex 3 and repeat no vertex. -/
theorem exStream : ∃ it it' : ConstrainedBestFirstIter exHeap,
    ConstrainedBestFirstIter.from_ exIterGraph (AStar.sumScore AStar.oneWeightedEdge AStar.zeroHeuristic) 2 = .done it ∧
    IterRun (ConstrainedBestFirstIter.next exIterGraph (AStar.sumScore AStar.oneWeightedEdge AStar.zeroHeuristic)
      [.Not (.ContainsVertex 3), .Not .ContainsCycle]) it [⟨⟨[2]⟩, 0⟩, ⟨⟨[2, 4]⟩, 1⟩, ⟨⟨[2, 4, 1]⟩, 2⟩] it' ∧
    Returns (ConstrainedBestFirstIter.next exIterGraph (AStar.sumScore AStar.oneWeightedEdge AStar.zeroHeuristic)
      [.Not (.ContainsVertex 3), .Not .ContainsCycle] it') none := by
  refine ⟨_, _, rfl, ((IterRun.refl.step (ConstrainedBestFirstIter.mono_next _ |>.returns (n := 9) rfl)).step
    (ConstrainedBestFirstIter.mono_next _ |>.returns (n := 9) rfl)).step
    (ConstrainedBestFirstIter.mono_next _ |>.returns (n := 9) rfl), ConstrainedBestFirstIter.mono_next _ |>.returns (n := 9) rfl⟩

/-- `C31_stream_sound`, `C31_stream_sorted`, `C31_stream_complete`, `C31_stream_fair` and `C31_stream_progress` for that stream: the
three walks are the only ones, and each of them is bound to come within three items. -/
example : ∃ it it' : ConstrainedBestFirstIter exHeap,
    ConstrainedBestFirstIter.from_ exIterGraph (AStar.sumScore AStar.oneWeightedEdge AStar.zeroHeuristic) 2 = .done it ∧
    IterRun (ConstrainedBestFirstIter.next exIterGraph (AStar.sumScore AStar.oneWeightedEdge AStar.zeroHeuristic)
      [.Not (.ContainsVertex 3), .Not .ContainsCycle]) it [⟨⟨[2]⟩, 0⟩, ⟨⟨[2, 4]⟩, 1⟩, ⟨⟨[2, 4, 1]⟩, 2⟩] it' ∧
    (∀ sp, Unpruned exIterGraph (AStar.sumScore AStar.oneWeightedEdge AStar.zeroHeuristic)
      [.Not (.ContainsVertex 3), .Not .ContainsCycle] 2 sp ↔ sp ∈ [(⟨⟨[2]⟩, 0⟩ : ScoredPath), ⟨⟨[2, 4]⟩, 1⟩, ⟨⟨[2, 4, 1]⟩, 2⟩]) ∧
    (∀ it'' out, IterRun (ConstrainedBestFirstIter.next exIterGraph (AStar.sumScore AStar.oneWeightedEdge AStar.zeroHeuristic)
      [.Not (.ContainsVertex 3), .Not .ContainsCycle]) it out it'' → 3 ≤ out.length → ⟨⟨[2, 4, 1]⟩, 2⟩ ∈ out) := by
  obtain ⟨it, it', h0, hr, he⟩ := exStream
  have hb := exIterGraph_built
  have key : ∀ sp, Unpruned exIterGraph (AStar.sumScore AStar.oneWeightedEdge AStar.zeroHeuristic)
      [.Not (.ContainsVertex 3), .Not .ContainsCycle] 2 sp ↔
      sp ∈ [(⟨⟨[2]⟩, 0⟩ : ScoredPath), ⟨⟨[2, 4]⟩, 1⟩, ⟨⟨[2, 4, 1]⟩, 2⟩] := fun sp =>
    ⟨C31_stream_complete exHeap _ hb _ _ 2 it it' _ h0 hr he sp, (C31_stream_sound exHeap _ hb _ _ 2 it it' _ h0 hr).2 sp⟩
  refine ⟨it, it', h0, hr, key, fun it'' out hr' hl => ?_⟩
  refine C31_stream_fair exHeap _ hb _ _ 2 (monotone_unit _ _) _ ((key _).2 (by simp)) 3 (fun l hn hl => ?_) it it'' out h0 hr' hl
  have : l ⊆ [(⟨⟨[2]⟩, 0⟩ : ScoredPath), ⟨⟨[2, 4]⟩, 1⟩, ⟨⟨[2, 4, 1]⟩, 2⟩] := fun x hx => (key x).1 (hl x hx).1
  exact (List.subperm_of_subset hn this).length_le

theorem endsAt_iff {end_ : VertexId} {sp : ScoredPath} : AStar.endsAt end_ sp = true ↔ sp.path.vertices.getLast? = some end_ := by
  unfold AStar.endsAt
  rw [decide_eq_true_eq]
  rfl

/-- The first items for the cyclic example graph, without constraints. -/
example : (ConstrainedBestFirstIter.from_ (H := exHeap) exIterGraph (AStar.sumScore AStar.oneWeightedEdge AStar.zeroHeuristic) 2).bind
    (fun it => Prog.takeN (ConstrainedBestFirstIter.next exIterGraph
      (AStar.sumScore AStar.oneWeightedEdge AStar.zeroHeuristic) [.Not (.ContainsVertex 3)]) 5 it 9) =
    .done [⟨⟨[2]⟩, 0⟩, ⟨⟨[2, 4]⟩, 1⟩, ⟨⟨[2, 4, 1]⟩, 2⟩, ⟨⟨[2, 4, 1, 2]⟩, 3⟩, ⟨⟨[2, 4, 1, 2, 4]⟩, 4⟩] := by decide +kernel

/-! ### C32 -/

/-- C32: for every heap and all cost and heuristic closures whose sum is an `i64` on every simple path from the start,
`shortest_path` returns; the answer is a simple path of the graph from the start to the end carrying its score, and it is `None`
exactly when the end cannot be reached. -/
theorem C32_shortest_path_exists (H : ScoredHeap) (g : DirectedGraph) (h : Built g) (start end_ : VertexId) (cost heuristic : ScoreFn)
    (f : Path → Int) (hf : ScoresBy g start (AStar.sumScore cost heuristic) f) :
    ∃ r, Returns (AStar.shortestPath H g cost heuristic start end_) r ∧
      (r = none ↔ ¬ Reach g start end_) ∧
      ∀ sp, r = some sp → WalkFromTo g start end_ sp.path.vertices ∧ sp.path.vertices.Nodup ∧ sp.score = f sp.path := by
  obtain ⟨it, xs, h1, h2, h3, h4, h5, _⟩ := best_drains (H := H) h.wf hf
  refine ⟨xs.find? (AStar.endsAt end_), ?_, ?_, ?_⟩
  · unfold AStar.shortestPath
    rw [h1]
    exact Returns.bind (Returns.lift_done _) (h2.find _)
  · rw [← h.wf.reachBy_iff, ← h5, List.find?_eq_none]
    constructor
    · intro hn hm
      obtain ⟨sp, hsp, rfl⟩ := List.mem_map.1 hm
      refine hn sp hsp ?_
      exact endsAt_iff.2 (last_eq_lastOf (h3 sp hsp).1)
    · intro hn sp hsp he
      refine hn (List.mem_map.2 ⟨sp, hsp, ?_⟩)
      have := last_eq_lastOf (h3 sp hsp).1
      rw [endsAt_iff.1 he] at this
      exact (Option.some.inj this).symm
  · intro sp hsp
    obtain ⟨h6, h7⟩ := h3 sp (List.mem_of_find?_eq_some hsp)
    have h8 := endsAt_iff.1 (List.find?_some hsp)
    exact ⟨⟨h6.1, h6.2.1, h8⟩, h6.2.2, h7⟩

/-- The paths from 5 in the example graph, with unit costs. -/
example : ∃ r, Returns (AStar.shortestPath exHeap exIterGraph AStar.oneWeightedEdge AStar.zeroHeuristic 5 4) r ∧
    (r = none ↔ ¬ Reach exIterGraph 5 4) := by
  obtain ⟨r, h1, h2, _⟩ := C32_shortest_path_exists exHeap exIterGraph exIterGraph_built 5 4 _ _
    (fun p => (p.vertices.length : Int) - 1) (fun p hp => by
      have h3 := SimplePathFrom.length_le exIterGraph_built.wf hp
      have h4 : exIterGraph.vertices.length = 5 := by decide
      rw [unit_score _ p (by intro e; rw [e] at hp; cases hp.2.1), if_pos (by omega)])
  exact ⟨r, h1, h2⟩

/-- C32: a start that equals the end is answered by the path of one vertex, even when it is not a vertex of the graph. -/
theorem C32_same_start_end (H : ScoredHeap) (g : DirectedGraph) (h : Built g) (start : VertexId) (cost heuristic : ScoreFn)
    (f : Path → Int) (hf : ScoresBy g start (AStar.sumScore cost heuristic) f) :
    Returns (AStar.shortestPath H g cost heuristic start start) (some ⟨⟨[start]⟩, f ⟨[start]⟩⟩) := by
  obtain ⟨r, h1, h2, h3⟩ := C32_shortest_path_exists H g h start start cost heuristic f hf
  cases r with
  | none => exact absurd Relation.ReflTransGen.refl (h2.1 rfl)
  | some sp =>
    obtain ⟨⟨h4, h5, h6⟩, h7, h8⟩ := h3 sp rfl
    obtain ⟨⟨l⟩, sc⟩ := sp
    simp only at h4 h5 h6 h7 h8
    have : l = [start] := by
      rcases l with _ | ⟨a, l⟩
      · cases h5
      · simp only [List.head?_cons, Option.some.injEq] at h5
        subst h5
        rcases List.eq_nil_or_concat l with rfl | ⟨l', b, rfl⟩
        · rfl
        · exfalso
          simp only [List.concat_eq_append] at *
          rw [← List.cons_append, List.getLast?_append] at h6
          simp only [List.getLast?_singleton, Option.some_or, Option.some.injEq] at h6
          subst h6
          simp at h7
    subst this
    subst h8
    exact h1

example : AStar.shortestPath exHeap exIterGraph AStar.oneWeightedEdge AStar.zeroHeuristic 5 4 9 = .done (some ⟨⟨[5, 1, 2, 4]⟩, 3⟩) ∧
    AStar.shortestPath exHeap exIterGraph AStar.oneWeightedEdge AStar.zeroHeuristic 1 5 9 = .done none := by decide +kernel

/-! ### C33 -/

theorem unit_scoresBy {g : DirectedGraph} (h : WF g) (start : VertexId) (hsize : g.vertices.length < 2 ^ 63) :
    ScoresBy g start (AStar.sumScore AStar.oneWeightedEdge AStar.zeroHeuristic) fun p => (p.vertices.length : Int) - 1 := by
  intro p hp
  have := SimplePathFrom.length_le h hp
  rw [unit_score g p (by intro e; rw [e] at hp; cases hp.2.1), if_pos (by omega)]

/-- C33: with the unit edge weights of gc-short-path, the answer of the search is a path from start to end with the smallest possible
number of edges, and its score is that number; the answer is `None` exactly when the end cannot be reached. (A graph with `2^63`
vertices or more would overflow the score.) -/
theorem C33_short_path_optimal (H : ScoredHeap) (g : DirectedGraph) (h : Built g) (hsize : g.vertexCount < 2 ^ 63) (start end_ : VertexId) :
    ∃ r, Returns (AStar.gcShortPath H g start end_) r ∧ (r = none ↔ ¬ Reach g start end_) ∧
      ∀ sp, r = some sp → WalkFromTo g start end_ sp.path.vertices ∧ sp.path.vertices.Nodup ∧
        sp.score = (sp.path.vertices.length : Int) - 1 ∧
        ∀ l, WalkFromTo g start end_ l → sp.path.vertices.length ≤ l.length := by
  have hv : g.vertices.length = g.vertexCount := by simp [vertexCount, vertices, HMap.keys]
  have hf := unit_scoresBy h.wf start (by omega)
  obtain ⟨it, xs, h1, h2, h3, h4, h5, h6⟩ := best_drains (H := H) h.wf hf
  obtain ⟨r, hr, hn, hs⟩ := C32_shortest_path_exists H g h start end_ _ _ _ hf
  refine ⟨r, hr, hn, ?_⟩
  intro sp hsp
  obtain ⟨h7, h8, h9⟩ := hs sp hsp
  refine ⟨h7, h8, h9, ?_⟩
  intro l hl
  have hr' : Returns (AStar.shortestPath H g AStar.oneWeightedEdge AStar.zeroHeuristic start end_) (xs.find? (AStar.endsAt end_)) := by
    unfold AStar.shortestPath
    rw [h1]
    exact Returns.bind (Returns.lift_done _) (h2.find _)
  rw [hr.unique hr'] at hsp
  have hmem := List.mem_of_find?_eq_some hsp
  have hlast : lastOf sp = end_ := by
    have := last_eq_lastOf (h3 sp hmem).1
    rw [h7.2.2] at this
    exact (Option.some.inj this).symm
  have h10 := h6 (fun p q hpq => by omega) sp hmem
  rw [hlast] at h10
  have h11 := (h.wf.walk_steps hl).dist_le
  have : l ≠ [] := by intro e; rw [e] at hl; cases hl.2.1
  have := List.length_pos_of_ne_nil this
  omega

/-- `C32_same_start_end` and `C33_short_path_optimal` for `exIterGraph`. -/
example : Returns (AStar.shortestPath exHeap exIterGraph AStar.oneWeightedEdge AStar.zeroHeuristic 3 3) (some ⟨⟨[3]⟩, 0⟩) ∧
    ∃ sp, Returns (AStar.gcShortPath exHeap exIterGraph 2 3) (some sp) ∧ ∀ l, WalkFromTo exIterGraph 2 3 l → sp.path.vertices.length ≤ l.length := by
  refine ⟨C32_same_start_end exHeap _ exIterGraph_built 3 _ _ _ (unit_scoresBy exIterGraph_built.wf 3 (by decide)), ?_⟩
  obtain ⟨r, h1, h2, h3⟩ := C33_short_path_optimal exHeap _ exIterGraph_built (by decide) 2 3
  cases r with
  | none => exact absurd (.head (b := 4) (by decide) (.head (b := 1) (by decide) (.single (by decide)))) (h2.1 rfl)
  | some sp => exact ⟨sp, h1, (h3 sp rfl).2.2.2⟩

example : exIterGraph.vertexCount < 2 ^ 63 ∧
    AStar.gcShortPath exHeap exIterGraph 2 3 9 = .done (some ⟨⟨[2, 4, 1, 3]⟩, 3⟩) := by decide +kernel

/-! ### C34 -/

/-- The graph 1→2, 1→3, 2→3. -/
def exWeightGraph : DirectedGraph := GraphCommand.applyCommands [.AddEdge 1 2, .AddEdge 1 3, .AddEdge 2 3] .new

/-- Edge costs: 10 for 1→3, otherwise 1. -/
def exEdgeCost (e : Edge) : Int := if e = ⟨1, 3⟩ then 10 else 1

/-- Additive cost of a path. -/
def exCost : ScoreFn := fun _ p => .done ((p.toEdgeList.map exEdgeCost).foldl (· + ·) 0)

/-- C34 is false: on 1→2 (cost 1), 2→3 (cost 1), 1→3 (cost 10) with the zero heuristic, which is consistent, the search for a path from
1 to 3 returns the path of cost 10, whatever the heap, because 3 is marked visited when it is first put in the queue. -/
theorem C34_counterexample (H : ScoredHeap) :
    Built exWeightGraph ∧ Returns (AStar.shortestPath H exWeightGraph exCost AStar.zeroHeuristic 1 3) (some ⟨⟨[1, 3]⟩, 10⟩) ∧
    WalkFromTo exWeightGraph 1 3 [1, 2, 3] ∧ exCost exWeightGraph ⟨[1, 2, 3]⟩ = .done 2 ∧
    (∀ p, AStar.zeroHeuristic exWeightGraph p = .done 0) := by
  have hb : Built exWeightGraph := Built.new.applyCommands _
  refine ⟨hb, ?_, ⟨?_, rfl, rfl⟩, by decide, fun _ => rfl⟩
  swap
  · simp only [List.isChain_cons_cons, List.isChain_singleton, Adj]; decide
  unfold AStar.shortestPath
  generalize hsc : AStar.sumScore exCost AStar.zeroHeuristic = sc
  have hsc1 : sc exWeightGraph ⟨[1]⟩ = .done 0 := by subst hsc; decide
  let f : Path → Int := fun p => (p.toEdgeList.map exEdgeCost).foldl (· + ·) 0
  let q0 : MinPriorityQueue ScoredPath ScoredPath.le H := MinPriorityQueue.new.push ⟨⟨[1]⟩, 0⟩
  have hfrom : BestFirstIter.from_ (H := H) exWeightGraph sc 1 = .done ⟨q0, [1]⟩ := by
    unfold BestFirstIter.from_
    have : (Path.empty.append 1 : Path) = ⟨[1]⟩ := rfl
    rw [this, hsc1]; rfl
  rw [hfrom]
  refine Returns.bind (Returns.lift_done _) ?_
  have hi0 : q0.items = [⟨⟨[1]⟩, 0⟩] := by
    have := MinPriorityQueue.items_push (MinPriorityQueue.new : MinPriorityQueue ScoredPath ScoredPath.le H) ⟨⟨[1]⟩, 0⟩
    rw [MinPriorityQueue.items_new] at this
    exact List.perm_singleton.1 this
  -- first item
  obtain ⟨x0, q1, hp0⟩ := MinPriorityQueue.exists_pop (q := q0) (by rw [hi0]; simp)
  obtain ⟨a1, _⟩ := MinPriorityQueue.pop_some hp0
  rw [hi0] at a1
  have a2 := List.perm_singleton.1 a1.symm
  simp only [List.cons.injEq] at a2
  obtain ⟨rfl, hq1⟩ := a2
  obtain ⟨q2, b1, b2⟩ := BestFirstIter.forEach_visit (H := H) (g := exWeightGraph) (scorefn := sc) (f := f) ⟨⟨[1]⟩, 0⟩
    (exWeightGraph.outs 1) (by decide) q1 [1] (by subst hsc; decide)
  have c1 : Returns (BestFirstIter.next exWeightGraph sc ⟨q0, [1]⟩)
      (some (⟨⟨[1]⟩, 0⟩, ⟨q2, ((exWeightGraph.outs 1).filter fun v => decide (v ∉ [1])).reverse ++ [1]⟩)) := by
    unfold BestFirstIter.next
    rw [hp0]
    simp only
    have : Path.last ⟨[1]⟩ = some 1 := rfl
    rw [this, Run.unwrap_some, Run.bind_done, b1]
    exact Returns.lift_done _
  rw [hq1] at b2
  have e1 : ([] : List ScoredPath) ++ ((exWeightGraph.outs 1).filter fun v => decide (v ∉ ([1] : List VertexId))).map (extend f ⟨⟨[1]⟩, 0⟩) =
      [⟨⟨[1, 2]⟩, 1⟩, ⟨⟨[1, 3]⟩, 10⟩] := by decide
  have e2 : ((exWeightGraph.outs 1).filter fun v => decide (v ∉ ([1] : List VertexId))).reverse ++ [1] = [3, 2, 1] := by decide
  rw [e1] at b2
  rw [e2] at c1
  -- second item
  obtain ⟨x1, q3, hp1⟩ := MinPriorityQueue.exists_pop (q := q2) (by
    intro e; have := b2.length_eq; rw [e] at this; simp at this)
  obtain ⟨a3, a4⟩ := MinPriorityQueue.pop_some hp1
  have hx1 : x1 = ⟨⟨[1, 2]⟩, 1⟩ := by
    have h1 : x1 ∈ [(⟨⟨[1, 2]⟩, 1⟩ : ScoredPath), ⟨⟨[1, 3]⟩, 10⟩] := b2.mem_iff.1 (a3.mem_iff.2 (by simp))
    have h2 := a4 ⟨⟨[1, 2]⟩, 1⟩ (b2.mem_iff.2 (by simp))
    simp only [List.mem_cons, List.not_mem_nil, or_false] at h1
    rcases h1 with h1 | h1
    · exact h1
    · rw [h1] at h2; exact absurd h2 (by decide)
  subst hx1
  have hq3 : q3.items = [⟨⟨[1, 3]⟩, 10⟩] := by
    have := (b2.symm.trans a3).cons_inv
    exact List.perm_singleton.1 this.symm
  obtain ⟨q4, b3, b4⟩ := BestFirstIter.forEach_visit (H := H) (g := exWeightGraph) (scorefn := sc) (f := f) ⟨⟨[1, 2]⟩, 1⟩
    (exWeightGraph.outs 2) (by decide) q3 [3, 2, 1] (by subst hsc; decide)
  have c2 : Returns (BestFirstIter.next exWeightGraph sc ⟨q2, [3, 2, 1]⟩)
      (some (⟨⟨[1, 2]⟩, 1⟩, ⟨q4, ((exWeightGraph.outs 2).filter fun v => decide (v ∉ [3, 2, 1])).reverse ++ [3, 2, 1]⟩)) := by
    unfold BestFirstIter.next
    rw [hp1]
    simp only
    have : Path.last ⟨[1, 2]⟩ = some 2 := rfl
    rw [this, Run.unwrap_some, Run.bind_done, b3]
    exact Returns.lift_done _
  rw [hq3] at b4
  have e3 : [(⟨⟨[1, 3]⟩, 10⟩ : ScoredPath)] ++
      ((exWeightGraph.outs 2).filter fun v => decide (v ∉ ([3, 2, 1] : List VertexId))).map (extend f ⟨⟨[1, 2]⟩, 1⟩) =
      [⟨⟨[1, 3]⟩, 10⟩] := by decide
  have e4 : ((exWeightGraph.outs 2).filter fun v => decide (v ∉ ([3, 2, 1] : List VertexId))).reverse ++ [3, 2, 1] = [3, 2, 1] := by decide
  rw [e3] at b4
  rw [e4] at c2
  have hq4 := List.perm_singleton.1 b4
  -- third item
  obtain ⟨x2, q5, hp2⟩ := MinPriorityQueue.exists_pop (q := q4) (by rw [hq4]; simp)
  obtain ⟨a5, _⟩ := MinPriorityQueue.pop_some hp2
  rw [hq4] at a5
  have a6 := List.perm_singleton.1 a5.symm
  simp only [List.cons.injEq] at a6
  obtain ⟨rfl, hq5⟩ := a6
  obtain ⟨q6, b5, _⟩ := BestFirstIter.forEach_visit (H := H) (g := exWeightGraph) (scorefn := sc) (f := f) ⟨⟨[1, 3]⟩, 10⟩
    (exWeightGraph.outs 3) (by decide) q5 [3, 2, 1] (by subst hsc; decide)
  have c3 : Returns (BestFirstIter.next exWeightGraph sc ⟨q4, [3, 2, 1]⟩)
      (some (⟨⟨[1, 3]⟩, 10⟩, ⟨q6, ((exWeightGraph.outs 3).filter fun v => decide (v ∉ [3, 2, 1])).reverse ++ [3, 2, 1]⟩)) := by
    unfold BestFirstIter.next
    rw [hp2]
    simp only
    have : Path.last ⟨[1, 3]⟩ = some 3 := rfl
    rw [this, Run.unwrap_some, Run.bind_done, b5]
    exact Returns.lift_done _
  exact ((IterRun.step .refl c1).step c2).find_some (by
    intro y hy
    simp only [List.nil_append, List.cons_append, List.mem_cons, List.not_mem_nil, or_false] at hy
    rcases hy with rfl | rfl <;> decide) c3 (by decide)

/-- C34 (partial): if all edges have the same positive cost and the heuristic is zero, the returned path has minimum cost among all walks
from start to end. Missing: costs that differ between edges, where the claim is false (`C34_counterexample`), and other consistent
heuristics, where it is false even for unit costs (`C34_counterexample_heuristic`). -/
theorem C34_uniform_cost_partial (H : ScoredHeap) (g : DirectedGraph) (h : Built g) (start end_ : VertexId) (cost : ScoreFn) (c : Nat)
    (hc : 0 < c) (hcost : ∀ p : Path, p.vertices ≠ [] → p.vertices.length ≤ g.vertexCount + 1 →
      cost g p = .done (c * ((p.vertices.length : Int) - 1)))
    (hsize : c * g.vertexCount < 2 ^ 63) (hr : Reach g start end_) :
    ∃ sp, Returns (AStar.shortestPath H g cost AStar.zeroHeuristic start end_) (some sp) ∧
      WalkFromTo g start end_ sp.path.vertices ∧ sp.score = c * ((sp.path.vertices.length : Int) - 1) ∧
      ∀ l, WalkFromTo g start end_ l → sp.score ≤ c * ((l.length : Int) - 1) := by
  have hv : g.vertices.length = g.vertexCount := by simp [vertexCount, vertices, HMap.keys]
  have hf : ScoresBy g start (AStar.sumScore cost AStar.zeroHeuristic) fun p => c * ((p.vertices.length : Int) - 1) := by
    intro p hp
    have hlen := SimplePathFrom.length_le h.wf hp
    have hne : p.vertices ≠ [] := by intro e; rw [e] at hp; cases hp.2.1
    have hpos := List.length_pos_of_ne_nil hne
    unfold AStar.sumScore AStar.zeroHeuristic addI64
    rw [hcost p hne (by omega), Run.bind_done, Run.bind_done]
    have h1 : (0 : Int) ≤ c * ((p.vertices.length : Int) - 1) := by
      have : (0 : Int) ≤ (p.vertices.length : Int) - 1 := by omega
      positivity
    have h2 : (c : Int) * ((p.vertices.length : Int) - 1) ≤ c * g.vertexCount := by
      apply Int.mul_le_mul_of_nonneg_left <;> omega
    have h3 : ((c * g.vertexCount : Nat) : Int) < 2 ^ 63 := by exact_mod_cast hsize
    push_cast at h3
    rw [if_pos (by omega), Int.add_zero]
  obtain ⟨it, xs, h1, h2, h3, h4, h5, h6⟩ := best_drains (H := H) h.wf hf
  obtain ⟨r, hr', hn, hs⟩ := C32_shortest_path_exists H g h start end_ _ _ _ hf
  cases r with
  | none => exact absurd hr (hn.1 rfl)
  | some sp =>
    obtain ⟨h7, h8, h9⟩ := hs sp rfl
    refine ⟨sp, hr', h7, h9, ?_⟩
    intro l hl
    have hr2 : Returns (AStar.shortestPath H g cost AStar.zeroHeuristic start end_) (xs.find? (AStar.endsAt end_)) := by
      unfold AStar.shortestPath
      rw [h1]
      exact Returns.bind (Returns.lift_done _) (h2.find _)
    have hmem := List.mem_of_find?_eq_some (hr'.unique hr2).symm
    have hlast : lastOf sp = end_ := by
      have := last_eq_lastOf (h3 sp hmem).1
      rw [h7.2.2] at this
      exact (Option.some.inj this).symm
    have h10 := h6 (fun p q hpq => by
      apply Int.mul_lt_mul_of_pos_left <;> omega) sp hmem
    rw [hlast] at h10
    have h11 := (h.wf.walk_steps hl).dist_le
    have hne : l ≠ [] := by intro e; rw [e] at hl; cases hl.2.1
    have := List.length_pos_of_ne_nil hne
    rw [h9]
    apply Int.mul_le_mul_of_nonneg_left <;> omega

/-- The unit weights of gc-short-path meet the hypotheses. -/
example : ∃ sp, Returns (AStar.shortestPath exHeap exIterGraph AStar.oneWeightedEdge AStar.zeroHeuristic 5 3) (some sp) ∧
    sp.score = ((sp.path.vertices.length : Int) - 1) := by
  obtain ⟨sp, h1, _, h2, _⟩ := C34_uniform_cost_partial exHeap exIterGraph exIterGraph_built 5 3 AStar.oneWeightedEdge 1 (by omega)
    (by
      intro p hp hlen
      have h5 : exIterGraph.vertexCount = 5 := by decide
      rw [oneWeightedEdge_eq _ p hp, if_pos (by omega)]
      congr 1
      omega)
    (by decide) (.tail (.tail .refl (by unfold Adj; decide : Adj exIterGraph 5 1)) (by unfold Adj; decide : Adj exIterGraph 1 3))
  exact ⟨sp, h1, by omega⟩

/-- The graph 1→2, 1→3, 2→4, 4→5, 3→5, 5→6, in which the shortest path from 1 to 6 is 1, 3, 5, 6. -/
def exHeurGraph : DirectedGraph := GraphCommand.applyCommands 
  [.AddEdge 1 2, .AddEdge 1 3, .AddEdge 2 4, .AddEdge 4 5, .AddEdge 3 5, .AddEdge 5 6] .new

/-- A heuristic value for every vertex. -/
def exHeurValue (v : VertexId) : Int := if v = 3 then 2 else if v = 5 then 1 else 0

/-- The heuristic: the value of the last vertex. -/
def exHeur : ScoreFn := fun _ p => .done ((p.last.map exHeurValue).getD 0)

/-- C34 is also false for unit costs: the heuristic that is 2 at vertex 3, 1 at vertex 5 and 0 elsewhere is consistent and zero at the
end, but (with the heap `exHeap`; no two scores compared are equal) the search for a path from 1 to 6 returns one of 4 edges although there
is one of 3. -/
theorem C34_counterexample_heuristic :
    Built exHeurGraph ∧ (∀ u v, Adj exHeurGraph u v → exHeurValue u ≤ 1 + exHeurValue v) ∧ exHeurValue 6 = 0 ∧
    Returns (AStar.shortestPath exHeap exHeurGraph AStar.oneWeightedEdge exHeur 1 6) (some ⟨⟨[1, 2, 4, 5, 6]⟩, 4⟩) ∧
    WalkFromTo exHeurGraph 1 6 [1, 3, 5, 6] := by
  refine ⟨Built.new.applyCommands _, ?_, by decide, ?_, ⟨?_, rfl, rfl⟩⟩
  · intro u v hu
    have h1 := (Built.wf (g := exHeurGraph) (Built.new.applyCommands _)).mem_edges.2 hu
    have h2 : ∀ e ∈ exHeurGraph.edges, exHeurValue e.src ≤ 1 + exHeurValue e.dst := by decide
    exact h2 _ h1
  · refine Mono.returns (Mono.bind (Mono.lift _) fun s => Mono.find ?_ _ _) (n := 9) (by decide +kernel)
    intro s
    unfold BestFirstIter.next
    split
    · exact Mono.ret _
    · exact Mono.lift _
  · simp only [List.isChain_cons_cons, List.isChain_singleton, Adj]; decide

/-! ### C35 -/

theorem constrained_inv {H : ScoredHeap} {g : DirectedGraph} {cost heuristic : ScoreFn} {start end_ : VertexId} {cs : List Constraint}
    {r : Option ScoredPath} (hr : Returns (AStar.constrainedShortestPath H g cost heuristic start end_ cs) r) :
    ∃ it, ConstrainedBestFirstIter.from_ (H := H) g (AStar.sumScore cost heuristic) start = .done it ∧
      Returns (Prog.find (AStar.isSolution end_ cs)
        (ConstrainedBestFirstIter.next g (AStar.sumScore cost heuristic) cs) it) r := by
  unfold AStar.constrainedShortestPath at hr
  cases h : ConstrainedBestFirstIter.from_ (H := H) g (AStar.sumScore cost heuristic) start with
  | done it => rw [h] at hr; exact ⟨it, rfl, Returns.of_bind_left (Returns.lift_done _) hr⟩
  | panicked =>
    rw [h] at hr
    obtain ⟨n, hn⟩ := hr
    exact absurd (hn n (Nat.le_refl _)) (by simp [Prog.bind, Prog.lift])
  | running =>
    rw [h] at hr
    obtain ⟨n, hn⟩ := hr
    exact absurd (hn n (Nat.le_refl _)) (by simp [Prog.bind, Prog.lift])

theorem isSolution_iff {end_ : VertexId} {cs : List Constraint} {sp : ScoredPath} :
    AStar.isSolution end_ cs sp = true ↔ sp.path.vertices.getLast? = some end_ ∧ ∀ c ∈ cs, Satisfies sp c := by
  unfold AStar.isSolution
  rw [Bool.and_eq_true, endsAt_iff, List.all_eq_true]
  simp only [checkComplete_iff]

/-- C35: whenever `constrained_shortest_path` returns a path, it is a walk of the graph from start to end, it satisfies every constraint,
and it carries its score. No assumption on the closures is made. -/
theorem C35_constrained_valid (H : ScoredHeap) (g : DirectedGraph) (h : Built g) (cost heuristic : ScoreFn) (start end_ : VertexId)
    (cs : List Constraint) (sp : ScoredPath) (hr : Returns (AStar.constrainedShortestPath H g cost heuristic start end_ cs) (some sp)) :
    WalkFromTo g start end_ sp.path.vertices ∧ (∀ c ∈ cs, Satisfies sp c) ∧
    ∃ a b, cost g sp.path = .done a ∧ heuristic g sp.path = .done b ∧ sp.score = a + b := by
  obtain ⟨it, h1, h2⟩ := constrained_inv hr
  obtain ⟨out, it', h3, h4, h5⟩ := find_inv ConstrainedBestFirstIter.mono_next h2
  rcases h5 with ⟨h5, _⟩ | ⟨x, it'', h5, h6, h7⟩
  · cases h5
  · cases h5
    have hi := cinv_run h.wf h1 (h3.step h7)
    obtain ⟨⟨h8, h9⟩, h10, _⟩ := hi.node sp (by simp)
    obtain ⟨h11, h12⟩ := isSolution_iff.1 h6
    refine ⟨⟨h8, h9, h11⟩, h12, ?_⟩
    unfold AStar.sumScore at h10
    obtain ⟨a, ha, h10⟩ := Run.bind_eq_done.1 h10
    obtain ⟨b, hb, h10⟩ := Run.bind_eq_done.1 h10
    refine ⟨a, b, ha, hb, ?_⟩
    unfold addI64 at h10
    split at h10
    · exact (Run.done.inj h10).symm
    · cases h10

/-- The search finds walks that visit a vertex twice when the constraints ask for it. -/
example : AStar.gcCsp exHeap exIterGraph 1 4 [.ContainsVertex 2, .ContainsVertex 3] 99 =
    .done (some ⟨⟨[1, 2, 4, 1, 3, 4]⟩, 5⟩) := by decide +kernel

/-! ### C36 -/

/-- C36: for monotone scores, a returned walk has the smallest score among all walks of the graph from start to end that have a score and
satisfy all constraints; and when `None` is returned there is no such walk. -/
theorem C36_constrained_optimal (H : ScoredHeap) (g : DirectedGraph) (h : Built g) (cost heuristic : ScoreFn) (start end_ : VertexId)
    (cs : List Constraint) (hm : MonotoneScore g (AStar.sumScore cost heuristic) start) (r : Option ScoredPath)
    (hr : Returns (AStar.constrainedShortestPath H g cost heuristic start end_ cs) r) (q : ScoredPath)
    (hq : WalkFromTo g start end_ q.path.vertices) (hs : AStar.sumScore cost heuristic g q.path = .done q.score)
    (hc : ∀ c ∈ cs, Satisfies q c) : ∃ sp, r = some sp ∧ sp.score ≤ q.score := by
  obtain ⟨it, h1, h2⟩ := constrained_inv hr
  obtain ⟨out, it', h3, h4, h5⟩ := find_inv ConstrainedBestFirstIter.mono_next h2
  have hun := unpruned_of_satisfies hm ⟨hq.1, hq.2.1⟩ hs hc
  have hsol : AStar.isSolution end_ cs q = true := isSolution_iff.2 ⟨hq.2.2, hc⟩
  have hqo : q ∉ out := fun hmem => by
    have := h4 q hmem
    rw [hsol] at this
    cases this
  rcases h5 with ⟨h5, h6⟩ | ⟨x, it'', h5, h6, h7⟩
  · exact absurd (C31_stream_complete H g h _ cs start it it' out h1 h3 h6 q hun) hqo
  · refine ⟨x, h5, ?_⟩
    by_cases hqx : q = x
    · rw [hqx]
    · have hi := cinv_run h.wf h1 (h3.step h7)
      have ho := sorted_run h.wf hm h1 (h3.step h7)
      obtain ⟨y, hy, hle, hall⟩ := done_le_of_missing hm hi ho hun (by
        intro hmem
        rcases List.mem_append.1 hmem with hmem | hmem
        · exact hqo hmem
        · exact hqx (List.mem_singleton.1 hmem))
      exact hall x (by simp)

theorem mono_csp (H : ScoredHeap) (g : DirectedGraph) (s t : VertexId) (cs : List Constraint) : Mono (AStar.gcCsp H g s t cs) := by
  unfold AStar.gcCsp AStar.constrainedShortestPath
  exact Mono.bind (Mono.lift _) fun _ => Mono.find ConstrainedBestFirstIter.mono_next _ _

/-- `C35_constrained_valid` and `C36_constrained_optimal` for a walk from 1 to 4 through 2 and 3. -/
example : (∃ sp, Returns (AStar.gcCsp exHeap exIterGraph 1 4 [.ContainsVertex 2, .ContainsVertex 3]) (some sp) ∧
      WalkFromTo exIterGraph 1 4 sp.path.vertices ∧ Satisfies sp (.ContainsVertex 3) ∧ sp.score ≤ 5) := by
  have hr : Returns (AStar.gcCsp exHeap exIterGraph 1 4 [.ContainsVertex 2, .ContainsVertex 3]) (some ⟨⟨[1, 2, 4, 1, 3, 4]⟩, 5⟩) := by
    exact Mono.returns (n := 99) (mono_csp _ _ _ _ _) (by decide +kernel)
  have hv := C35_constrained_valid exHeap _ exIterGraph_built _ _ 1 4 _ _ hr
  obtain ⟨sp, e, hle⟩ := C36_constrained_optimal exHeap _ exIterGraph_built _ _ 1 4 _ (monotone_unit _ _) _ hr
    ⟨⟨[1, 3, 4, 1, 2, 4]⟩, 5⟩ ⟨by decide, rfl, rfl⟩ (by decide) (fun c hc => (checkComplete_iff c _).1 (by revert c; decide))
  cases e
  exact ⟨_, hr, hv.1, hv.2.1 _ (by simp), hle⟩

/-- Monotone scores: the unit weights of gc-csp on every graph. -/
example (g : DirectedGraph) (start : VertexId) : MonotoneScore g (AStar.sumScore AStar.oneWeightedEdge AStar.zeroHeuristic) start :=
  monotone_unit g start

/-! ### C37 -/

theorem WalkFrom.snoc {g : DirectedGraph} {start u v : VertexId} {l : List VertexId} (h : WalkFrom g start l)
    (hl : l.getLast? = some u) (ha : Adj g u v) : WalkFrom g start (l ++ [v]) := by
  refine ⟨?_, ?_⟩
  · rw [List.isChain_append]
    refine ⟨h.1, by simp, ?_⟩
    intro a ha' b hb
    rw [hl] at ha'
    simp only [List.head?_cons, Option.mem_def, Option.some.injEq] at ha' hb
    subst ha' hb
    exact ha
  · rw [List.head?_append, h.2]; rfl

theorem WalkFrom.ne_nil {g : DirectedGraph} {start : VertexId} {l : List VertexId} (h : WalkFrom g start l) : l ≠ [] := by
  intro e
  rw [e] at h
  cases h.2

/-- The search of gc-csp returns when everything it can pop and extend is shorter than `2^63`. -/
theorem csp_returns {H : ScoredHeap} {g : DirectedGraph} (h : Built g) {start end_ : VertexId} {cs : List Constraint}
    (hb : ∀ done items, CInv g (AStar.sumScore AStar.oneWeightedEdge AStar.zeroHeuristic) cs start done items → SortedInv done items →
      (∀ x ∈ done, AStar.isSolution end_ cs x = false) →
      ∀ x ∈ items, (∀ y ∈ items, x.score ≤ y.score) → ∀ u v, x.path.vertices.getLast? = some u → Adj g u v →
        x.path.vertices.length < 2 ^ 63) :
    ∃ r, Returns (AStar.gcCsp H g start end_ cs) r := by
  have hm := monotone_unit g start
  have hus := unit_score g
  unfold AStar.gcCsp AStar.constrainedShortestPath
  generalize AStar.sumScore AStar.oneWeightedEdge AStar.zeroHeuristic = sc at *
  have hfrom : ∃ it, ConstrainedBestFirstIter.from_ (H := H) g sc start = .done it := by
    unfold ConstrainedBestFirstIter.from_
    have : (Path.empty.append start : Path) = ⟨[start]⟩ := rfl
    rw [this, hus ⟨[start]⟩ (by simp), if_pos (by simp)]
    exact ⟨_, rfl⟩
  obtain ⟨it, hit⟩ := hfrom
  rw [hit]
  obtain ⟨N, hN⟩ := exists_bound g sc (2 ^ 63)
  suffices hfind : ∃ r, Returns (Prog.find (AStar.isSolution end_ cs) (ConstrainedBestFirstIter.next g sc cs) it) r by
    obtain ⟨r, hr⟩ := hfind
    exact ⟨r, Returns.bind (Returns.lift_done _) hr⟩
  refine find_returns (fun outs s => IterRun (ConstrainedBestFirstIter.next g sc cs) it outs s ∧
    ∀ x ∈ outs, AStar.isSolution end_ cs x = false) N ?_ ?_ it ⟨.refl, by simp⟩
  · rintro outs s ⟨hrun, hno⟩
    have hi := cinv_run h.wf hit hrun
    refine hN outs (List.nodup_append.1 hi.nodup).1 fun x hx => ?_
    have hxn := hi.node x (by simp [hx])
    refine ⟨?_, hxn.2.1⟩
    have := hxn.2.1
    rw [hus _ hxn.1.ne_nil] at this
    split at this
    · assumption
    · cases this
  · rintro outs s ⟨hrun, hno⟩
    have hi := cinv_run h.wf hit hrun
    have ho := sorted_run h.wf hm hit hrun
    by_cases he : s.queue.items = []
    · exact .inl (ConstrainedBestFirstIter.next_none he)
    · right
      obtain ⟨x, s', hx, h1⟩ := ConstrainedBestFirstIter.next_some (g := g) (scorefn := sc) (cs := cs) he (by
        intro x hx hmin
        have hxn := hi.node x (by simp [hx])
        have hlen := hb outs _ hi ho hno x hx hmin
        cases hl : x.path.vertices.getLast? with
        | none => exact absurd (List.getLast?_eq_none_iff.1 hl) hxn.1.ne_nil
        | some u =>
          refine ⟨u, rfl, fun v hv => ?_⟩
          have hlen := hlen u v hl (h.wf.mem_outs'.1 hv)
          rw [hus _ (by simp [Path.append]), if_pos (by simp only [Path.append, List.length_append, List.length_singleton]; omega)]
          exact ⟨_, rfl⟩)
      refine ⟨x, s', h1, fun hp => ⟨hrun.step h1, ?_⟩⟩
      intro y hy
      rcases List.mem_append.1 hy with hy | hy
      · exact hno y hy
      · rw [List.mem_singleton.1 hy]; exact hp

/-- C37 (positive half): whenever some walk from start to end (shorter than `2^63`) satisfies all constraints, the search of gc-csp
returns one, and it has the smallest number of edges. -/
theorem C37_finds_solution_partial (H : ScoredHeap) (g : DirectedGraph) (h : Built g) (start end_ : VertexId) (cs : List Constraint)
    (q : Path) (hq : WalkFromTo g start end_ q.vertices) (hlen : q.vertices.length < 2 ^ 63)
    (hc : ∀ c ∈ cs, Satisfies ⟨q, (q.vertices.length : Int) - 1⟩ c) :
    ∃ sp, Returns (AStar.gcCsp H g start end_ cs) (some sp) ∧ WalkFromTo g start end_ sp.path.vertices ∧
      sp.score = (sp.path.vertices.length : Int) - 1 ∧ (∀ c ∈ cs, Satisfies sp c) ∧
      sp.path.vertices.length ≤ q.vertices.length := by
  have hm := monotone_unit g start
  have hne : q.vertices ≠ [] := by intro e; rw [e] at hq; cases hq.2.1
  have hs : AStar.sumScore AStar.oneWeightedEdge AStar.zeroHeuristic g q = .done ((q.vertices.length : Int) - 1) := by
    rw [unit_score g q hne, if_pos (by omega)]
  have hun := unpruned_of_satisfies hm (q := ⟨q, (q.vertices.length : Int) - 1⟩) ⟨hq.1, hq.2.1⟩ hs hc
  have hsol : AStar.isSolution end_ cs ⟨q, (q.vertices.length : Int) - 1⟩ = true := isSolution_iff.2 ⟨hq.2.2, hc⟩
  have hscore : ∀ x : ScoredPath, Unpruned g (AStar.sumScore AStar.oneWeightedEdge AStar.zeroHeuristic) cs start x →
      x.score = (x.path.vertices.length : Int) - 1 := by
    intro x hx
    have h1 := hx.2.1
    rw [unit_score g _ hx.1.ne_nil] at h1
    split at h1
    · exact (Run.done.inj h1).symm
    · cases h1
  obtain ⟨r, hr⟩ := csp_returns (H := H) h (end_ := end_) (cs := cs) (start := start) (by
    intro done items hi ho hno x hx hmin _ _ _ _
    have hqd : (⟨q, (q.vertices.length : Int) - 1⟩ : ScoredPath) ∉ done := fun hmem => by
      have := hno _ hmem
      rw [hsol] at this
      cases this
    obtain ⟨y, hy, hle, hall⟩ := done_le_of_missing hm hi ho hun hqd
    simp only at hle
    have h1 := hmin y hy
    rw [hscore x (hi.node x (by simp [hx]))] at h1
    omega)
  obtain ⟨sp, rfl, hle⟩ := C36_constrained_optimal H g h _ _ start end_ cs hm r hr ⟨q, (q.vertices.length : Int) - 1⟩ hq hs hc
  obtain ⟨h1, h2, a, b, ha, hb, hab⟩ := C35_constrained_valid H g h _ _ start end_ cs sp hr
  have hsp : sp.score = (sp.path.vertices.length : Int) - 1 := by
    have hne : sp.path.vertices ≠ [] := by intro e; rw [e] at h1; cases h1.2.1
    rw [oneWeightedEdge_eq g _ hne] at ha
    split at ha
    · cases ha; cases hb; omega
    · cases ha
  refine ⟨sp, hr, h1, hsp, h2, ?_⟩
  simp only at hle
  omega

/-- The walk 1, 2, 4, 1, 3, 4 visits 2 and 3, so gc-csp finds an answer of at most 6 vertices. -/
example : ∃ sp, Returns (AStar.gcCsp exHeap exIterGraph 1 4 [.ContainsVertex 2, .ContainsVertex 3]) (some sp) ∧
    sp.path.vertices.length ≤ 6 := by
  obtain ⟨sp, h1, _, _, _, h2⟩ := C37_finds_solution_partial exHeap exIterGraph exIterGraph_built 1 4 [.ContainsVertex 2, .ContainsVertex 3]
    ⟨[1, 2, 4, 1, 3, 4]⟩ ⟨by simp only [List.isChain_cons_cons, List.isChain_singleton, Adj]; decide, rfl, rfl⟩ (by decide)
    (by simp only [List.forall_mem_cons, Satisfies, Visits]; exact ⟨⟨1, rfl⟩, ⟨4, rfl⟩, by simp⟩)
  exact ⟨sp, h1, h2⟩

/-- C37 (negative half, partial): when partial checking bounds the length of the unpruned walks, the search returns, and it answers `None`
exactly when no walk from start to end satisfies all constraints. Missing: constraints that do not bound the length, where the search for
a non-existing solution never ends (`C37_counterexample`). -/
theorem C37_terminates_partial (H : ScoredHeap) (g : DirectedGraph) (h : Built g) (start end_ : VertexId) (cs : List Constraint)
    (B : Nat) (hB : B < 2 ^ 63)
    (hb : ∀ sp, Unpruned g (AStar.sumScore AStar.oneWeightedEdge AStar.zeroHeuristic) cs start sp → sp.path.vertices.length ≤ B) :
    ∃ r, Returns (AStar.gcCsp H g start end_ cs) r ∧
      (r = none ↔ ¬ ∃ q : Path, WalkFromTo g start end_ q.vertices ∧ q.vertices.length ≤ 2 ^ 63 ∧
        ∀ c ∈ cs, Satisfies ⟨q, (q.vertices.length : Int) - 1⟩ c) := by
  have hm := monotone_unit g start
  obtain ⟨r, hr⟩ := csp_returns (H := H) h (end_ := end_) (cs := cs) (start := start) (by
    intro done items hi ho hno x hx _ _ _ _ _
    have := hb x (hi.node x (by simp [hx]))
    omega)
  refine ⟨r, hr, ?_⟩
  constructor
  · rintro rfl ⟨q, hq, hlen, hc⟩
    have hne : q.vertices ≠ [] := by intro e; rw [e] at hq; cases hq.2.1
    have hs : AStar.sumScore AStar.oneWeightedEdge AStar.zeroHeuristic g q = .done ((q.vertices.length : Int) - 1) := by
      rw [unit_score g q hne, if_pos hlen]
    obtain ⟨sp, h1, _⟩ := C36_constrained_optimal H g h _ _ start end_ cs hm none hr ⟨q, (q.vertices.length : Int) - 1⟩ hq hs hc
    cases h1
  · intro hno
    cases r with
    | none => rfl
    | some sp =>
      exfalso
      obtain ⟨h1, h2, a, b, ha, hb', hab⟩ := C35_constrained_valid H g h _ _ start end_ cs sp hr
      refine hno ⟨sp.path, h1, ?_, ?_⟩
      · by_contra hlt
        have hne : sp.path.vertices ≠ [] := by intro e; rw [e] at h1; cases h1.2.1
        rw [oneWeightedEdge_eq g _ hne, if_neg hlt] at ha
        cases ha
      · have hsp : sp.score = (sp.path.vertices.length : Int) - 1 := by
          have hne : sp.path.vertices ≠ [] := by intro e; rw [e] at h1; cases h1.2.1
          rw [oneWeightedEdge_eq g _ hne] at ha
          split at ha
          · cases ha; cases hb'; omega
          · cases ha
        rw [← hsp]
        exact h2

/-- `C37_terminates_partial` with walks of at most four vertices. -/
example : ∃ r, Returns (AStar.gcCsp exHeap exIterGraph 1 5 [.MaxLength 4]) r ∧
    (r = none ↔ ¬ ∃ q : Path, WalkFromTo exIterGraph 1 5 q.vertices ∧ q.vertices.length ≤ 2 ^ 63 ∧
      ∀ c ∈ [Constraint.MaxLength 4], Satisfies ⟨q, (q.vertices.length : Int) - 1⟩ c) := by
  refine C37_terminates_partial exHeap _ exIterGraph_built 1 5 _ 4 (by decide) ?_
  intro sp hsp
  by_cases h2 : 2 ≤ sp.path.vertices.length
  · obtain ⟨s, _, h⟩ := hsp.2.2 sp.path (List.prefix_refl _) h2
    exact h (.MaxLength 4) (by simp)
  · omega

/-- C37 (partial): the search terminates with a correct answer when the length is bounded by `MaxLength`, the
score by `MaxScore`, or cycles are excluded. -/
theorem C37_bounded_constraints_partial (H : ScoredHeap) (g : DirectedGraph) (h : Built g) (start end_ : VertexId) (cs : List Constraint)
    (hsize : g.vertexCount < 2 ^ 63 - 1)
    (hc : (∃ n, n < 2 ^ 63 ∧ .MaxLength n ∈ cs) ∨ (∃ n : Int, n < 2 ^ 63 - 1 ∧ .MaxScore n ∈ cs) ∨ .Not .ContainsCycle ∈ cs) :
    ∃ r, Returns (AStar.gcCsp H g start end_ cs) r ∧
      (r = none ↔ ¬ ∃ q : Path, WalkFromTo g start end_ q.vertices ∧ q.vertices.length ≤ 2 ^ 63 ∧
        ∀ c ∈ cs, Satisfies ⟨q, (q.vertices.length : Int) - 1⟩ c) := by
  have hv : g.vertices.length = g.vertexCount := by simp [vertexCount, vertices, HMap.keys]
  rcases hc with ⟨n, hn, hc⟩ | ⟨n, hn, hc⟩ | hc
  rotate_left
  · refine C37_terminates_partial H g h start end_ cs (max (n + 1).toNat 1) (by omega) ?_
    intro sp hsp
    by_cases h2 : 2 ≤ sp.path.vertices.length
    · obtain ⟨s, h4, h3⟩ := hsp.2.2 sp.path (List.prefix_refl _) h2
      have h5 : s ≤ n := h3 _ hc
      rw [unit_score g _ hsp.1.ne_nil] at h4
      split at h4
      · cases h4; omega
      · cases h4
    · omega
  rotate_left
  · refine C37_terminates_partial H g h start end_ cs (max n 1) (by omega) ?_
    intro sp hsp
    by_cases h2 : 2 ≤ sp.path.vertices.length
    · obtain ⟨s, _, h3⟩ := hsp.2.2 sp.path (List.prefix_refl _) h2
      have := h3 _ hc
      have h4 : sp.path.vertices.length ≤ n := this
      omega
    · omega
  · refine C37_terminates_partial H g h start end_ cs (g.vertices.length + 1) (by omega) ?_
    intro sp hsp
    by_cases h2 : 2 ≤ sp.path.vertices.length
    · obtain ⟨s, _, h3⟩ := hsp.2.2 sp.path (List.prefix_refl _) h2
      have := h3 _ hc
      have hcyc : sp.path.containsCycle = false := by
        rw [← Bool.not_eq_true, containsCycle_iff]; exact this
      exact SimplePathFrom.length_le h.wf ⟨hsp.1.1, hsp.1.2, containsCycle_false_iff.1 hcyc⟩
    · omega

/-- C37 (exactly when a missing solution is reported): the search of gc-csp answers "not reachable" if and only if no walk from start to
end satisfies all constraints, and partial checking stops every walk before it has `2^63` vertices and a further step. So when
there is no solution and the constraints let walks grow without bound, there is no answer at all. -/
theorem C37_not_reachable_iff (H : ScoredHeap) (g : DirectedGraph) (h : Built g) (start end_ : VertexId) (cs : List Constraint) :
    Returns (AStar.gcCsp H g start end_ cs) none ↔
      (¬ ∃ q : Path, WalkFromTo g start end_ q.vertices ∧ q.vertices.length ≤ 2 ^ 63 ∧
        ∀ c ∈ cs, Satisfies ⟨q, (q.vertices.length : Int) - 1⟩ c) ∧
      ∀ sp u v, Unpruned g (AStar.sumScore AStar.oneWeightedEdge AStar.zeroHeuristic) cs start sp →
        sp.path.vertices.getLast? = some u → Adj g u v → sp.path.vertices.length < 2 ^ 63 := by
  have hm := monotone_unit g start
  constructor
  · intro hr
    refine ⟨?_, ?_⟩
    · rintro ⟨q, hq, hlen, hc⟩
      have hne : q.vertices ≠ [] := by intro e; rw [e] at hq; cases hq.2.1
      have hs : AStar.sumScore AStar.oneWeightedEdge AStar.zeroHeuristic g q = .done ((q.vertices.length : Int) - 1) := by
        rw [unit_score g q hne, if_pos hlen]
      obtain ⟨sp, h1, _⟩ := C36_constrained_optimal H g h _ _ start end_ cs hm none hr ⟨q, (q.vertices.length : Int) - 1⟩ hq hs hc
      cases h1
    · intro sp u v hsp hu ha
      obtain ⟨it, h1, h2⟩ := constrained_inv hr
      obtain ⟨out, it', h3, h4, h5⟩ := find_inv ConstrainedBestFirstIter.mono_next h2
      rcases h5 with ⟨_, h5⟩ | ⟨x, it'', h5, _⟩
      swap
      · cases h5
      have hi := cinv_run h.wf h1 h3
      rw [ConstrainedBestFirstIter.next_none_inv h5] at hi
      rcases hi.ancestor hsp with h6 | ⟨y, hy, _⟩
      · obtain ⟨s, h7, _⟩ := hi.closed sp h6 u v hu ha
        rw [unit_score g _ (by simp [Path.append])] at h7
        split at h7
        · rename_i h8
          simp only [Path.append, List.length_append, List.length_singleton] at h8
          omega
        · cases h7
      · cases hy
  · rintro ⟨hno, hb⟩
    obtain ⟨r, hr⟩ := csp_returns (H := H) h (end_ := end_) (cs := cs) (start := start) (by
      intro done items hi ho _ x hx _ u v hu ha
      exact hb x u v (hi.node x (by simp [hx])) hu ha)
    cases r with
    | none => exact hr
    | some sp =>
      exfalso
      obtain ⟨h1, h2, a, b, ha, hb', hab⟩ := C35_constrained_valid H g h _ _ start end_ cs sp hr
      have hne : sp.path.vertices ≠ [] := by intro e; rw [e] at h1; cases h1.2.1
      rw [oneWeightedEdge_eq g _ hne] at ha
      split at ha
      · rename_i h3
        refine hno ⟨sp.path, h1, h3, ?_⟩
        have hsp : sp.score = (sp.path.vertices.length : Int) - 1 := by
          cases ha; cases hb'; omega
        rw [← hsp]
        exact h2
      · cases ha

/-- Both sides of the equivalence on 1→2 with the unreachable vertex 3: nothing to find and nothing to grow. -/
example (H : ScoredHeap) : let g := GraphCommand.applyCommands [.AddEdge 1 2, .AddVertex 3] .new
    Returns (AStar.gcCsp H g 1 3 [.Not .ContainsCycle]) none := by
  intro g
  have hb : Built g := Built.new.applyCommands _
  have hin : ∀ u, ¬ Adj g u 3 := by
    intro u hu
    have h1 := hb.wf.mem_edges.2 hu
    have h2 : ∀ e ∈ g.edges, e.dst ≠ 3 := by decide
    exact h2 _ h1 rfl
  obtain ⟨r, h1, h2⟩ := C37_bounded_constraints_partial H g hb 1 3 [.Not .ContainsCycle]
    (by have : g.vertexCount = 3 := by decide
        omega) (.inr (.inr (by simp)))
  have : r = none := h2.2 (by
    rintro ⟨⟨l⟩, ⟨h3, h4, h5⟩, _⟩
    simp only at h3 h4 h5
    obtain ⟨l', rfl⟩ := List.getLast?_eq_some_iff.1 h5
    rcases List.eq_nil_or_concat l' with rfl | ⟨l'', x, hx⟩
    · exact absurd h4 (by decide)
    · rw [List.concat_eq_append] at hx
      subst hx
      rw [List.isChain_append] at h3
      exact hin x (h3.2.2 x (by simp) 3 (by simp)))
  exact this ▸ h1

/-- C37 is false: without constraints, if the end cannot be reached but a cycle can, the search never answers (neither `None` nor a path),
on any graph and with any heap. -/
theorem C37_counterexample_general (H : ScoredHeap) (g : DirectedGraph) (h : Built g) (start end_ u : VertexId)
    (hu : Reach g start u) (hcyc : Relation.TransGen (Adj g) u u) (hend : ¬ Reach g start end_) (r : Option ScoredPath) :
    ¬ Returns (AStar.gcCsp H g start end_ []) r := by
  intro hr
  have hreach : ∀ l v, WalkFromTo g start v l → Reach g start v := by
    intro l
    induction l using List.reverseRecOn with
    | nil => intro v hl; cases hl.2.1
    | append_singleton l w ih =>
      rintro v ⟨h1, h2, h3⟩
      have hwv : w = v := by simpa using h3
      subst hwv
      rcases List.eq_nil_or_concat l with rfl | ⟨l', x, hx⟩
      · simp only [List.nil_append, List.head?_cons, Option.some.injEq] at h2
        subst h2; exact .refl
      · rw [List.concat_eq_append] at hx
        subst hx
        rw [List.isChain_append] at h1
        refine .tail (ih x ⟨h1.1, ?_, by simp⟩) (h1.2.2 x (by simp) w (by simp))
        rw [List.head?_append] at h2
        cases l' <;> simpa using h2
  cases r with
  | some sp => exact hend (hreach _ _ (C35_constrained_valid H g h _ _ start end_ [] sp hr).1)
  | none =>
    obtain ⟨it, h1, h2⟩ := constrained_inv hr
    obtain ⟨out, it', h3, h4, h5⟩ := find_inv ConstrainedBestFirstIter.mono_next h2
    rcases h5 with ⟨_, h5⟩ | ⟨x, it'', h5, _⟩
    swap
    · cases h5
    have hi := cinv_run h.wf h1 h3
    rw [ConstrainedBestFirstIter.next_none_inv h5] at hi
    -- every vertex that reaches `u` has a successor that reaches `u`
    have hsucc : ∀ v, Reach g v u → ∃ w, Adj g v w ∧ Reach g w u := by
      intro v hv
      rcases Relation.ReflTransGen.cases_head hv with rfl | ⟨w, h6, h7⟩
      · rcases Relation.TransGen.head'_iff.1 hcyc with ⟨w, h6, h7⟩
        exact ⟨w, h6, h7⟩
      · exact ⟨w, h6, h7⟩
    have hlong : ∀ n : Nat, ∃ sp ∈ out, sp.path.vertices.length = n + 1 ∧ ∃ v, sp.path.vertices.getLast? = some v ∧ Reach g v u := by
      intro n
      induction n with
      | zero =>
        obtain ⟨s, _, h6⟩ := hi.root
        exact ⟨_, by simpa using h6, rfl, start, rfl, hu⟩
      | succ n ih =>
        obtain ⟨sp, h6, h7, v, h8, h9⟩ := ih
        obtain ⟨w, h10, h11⟩ := hsucc v h9
        obtain ⟨s, _, h12⟩ := hi.closed sp h6 v w h8 h10
        have := h12 (by simp)
        exact ⟨_, by simpa using this, by simp [Path.append, h7], w, by simp [Path.append], h11⟩
    obtain ⟨sp, h6, h7, v, h8, h9⟩ := hlong (2 ^ 63)
    have := (hi.node sp (by simp [h6])).2.1
    rw [unit_score g _ (by intro e; rw [e] at h7; simp at h7), if_neg (by omega)] at this
    cases this

/-- C37, a concrete case: 1→2→1 with the isolated vertex 3 as end. -/
theorem C37_counterexample : let g := GraphCommand.applyCommands [.AddEdge 1 2, .AddEdge 2 1, .AddVertex 3] .new
    Built g ∧ (∀ q : Path, ¬ WalkFromTo g 1 3 q.vertices) ∧ ∀ H r, ¬ Returns (AStar.gcCsp H g 1 3 []) r := by
  intro g
  have hb : Built g := Built.new.applyCommands _
  have hin : ∀ u, ¬ Adj g u 3 := by
    intro u hu
    have h1 := hb.wf.mem_edges.2 hu
    have h2 : ∀ e ∈ g.edges, e.dst ≠ 3 := by decide
    exact h2 _ h1 rfl
  have hnr : ¬ Reach g 1 3 := by
    intro hr
    rcases Relation.ReflTransGen.cases_tail hr with h1 | ⟨u, _, h2⟩
    · exact absurd h1 (by decide)
    · exact hin u h2
  refine ⟨hb, ?_, ?_⟩
  · rintro ⟨l⟩ ⟨h1, h2, h3⟩
    simp only at h1 h2 h3
    obtain ⟨l', rfl⟩ := List.getLast?_eq_some_iff.1 h3
    rcases List.eq_nil_or_concat l' with rfl | ⟨l'', x, hx⟩
    · exact absurd h2 (by decide)
    · rw [List.concat_eq_append] at hx
      subst hx
      rw [List.isChain_append] at h1
      exact hin x (h1.2.2 x (by simp) 3 (by simp))
  · intro H r
    refine C37_counterexample_general H g hb 1 3 1 .refl ?_ hnr r
    exact .tail (.single (by unfold Adj; decide : Adj g 1 2)) (by unfold Adj; decide : Adj g 2 1)

/-- The same question with a bound on the length is answered. -/
example : AStar.gcCsp exHeap (GraphCommand.applyCommands [.AddEdge 1 2, .AddEdge 2 1, .AddVertex 3] .new) 1 3 [.MaxLength 4] 20 =
    .done none := by decide +kernel

end GC
