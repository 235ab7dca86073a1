/-
Property C125: the order of constrained best-first iteration.
-/
import Verif.Proofs.ConstrainedOrder
import Verif.Props.BestOrder
namespace GC
open DirectedGraph

/-- C125: at each step `constrained_best_iter_from` yields a walk of least score among those that wait. No assumption on the scoring closure
is made. -/
theorem C125_order (H : ScoredHeap) (g : DirectedGraph) (h : Built g) (scorefn : ScoreFn) (cs : List Constraint) (start : VertexId)
    (it it' : ConstrainedBestFirstIter H) (out : List ScoredPath) (h0 : ConstrainedBestFirstIter.from_ g scorefn start = .done it)
    (hr : IterRun (ConstrainedBestFirstIter.next g scorefn cs) it out it') (i : Nat) (sp : ScoredPath) (hi : out[i]? = some sp) :
    WaitsAfter g scorefn cs start (out.take i) sp ∧ ∀ y, WaitsAfter g scorefn cs start (out.take i) y → sp.score ≤ y.score :=
  constrained_order h.wf h0 hr i sp hi

/-- C125: it ends exactly when no walk waits. -/
theorem C125_end (H : ScoredHeap) (g : DirectedGraph) (h : Built g) (scorefn : ScoreFn) (cs : List Constraint) (start : VertexId)
    (it it' : ConstrainedBestFirstIter H) (out : List ScoredPath) (h0 : ConstrainedBestFirstIter.from_ g scorefn start = .done it)
    (hr : IterRun (ConstrainedBestFirstIter.next g scorefn cs) it out it') :
    Returns (ConstrainedBestFirstIter.next g scorefn cs it') none ↔ ∀ y, ¬ WaitsAfter g scorefn cs start out y := by
  have hc := cinv_run h.wf h0 hr
  constructor
  · intro hn y hy
    have := (hc.waits y).1 hy
    rw [ConstrainedBestFirstIter.next_none_inv hn] at this
    cases this
  · intro hn
    refine ConstrainedBestFirstIter.next_none ?_
    rw [List.eq_nil_iff_forall_not_mem]
    intro y hy
    exact hn y ((hc.waits y).2 hy)

/-- C125: if no two unpruned walks have the same score, the items yielded are determined by the edges of the graph, the scores and the
constraints: any heap and any graph with the same edges yields them too. -/
theorem C125_determined (H H' : ScoredHeap) (g g' : DirectedGraph) (h : Built g) (h' : Built g') (ha : ∀ u v, Adj g u v ↔ Adj g' u v)
    (scorefn scorefn' : ScoreFn) (cs : List Constraint) (start : VertexId)
    (hs : ∀ p : Path, WalkFrom g start p.vertices → scorefn' g' p = scorefn g p)
    (hinj : ∀ x y, Unpruned g scorefn cs start x → Unpruned g scorefn cs start y → x.score = y.score → x = y)
    (it it1 : ConstrainedBestFirstIter H) (out : List ScoredPath) (h0 : ConstrainedBestFirstIter.from_ g scorefn start = .done it)
    (hr : IterRun (ConstrainedBestFirstIter.next g scorefn cs) it out it1) :
    ∃ it' it1' : ConstrainedBestFirstIter H', ConstrainedBestFirstIter.from_ g' scorefn' start = .done it' ∧
      IterRun (ConstrainedBestFirstIter.next g' scorefn' cs) it' out it1' ∧
      (Returns (ConstrainedBestFirstIter.next g scorefn cs it1) none → Returns (ConstrainedBestFirstIter.next g' scorefn' cs it1') none) := by
  obtain ⟨s', s1', h1, h2, h3, _⟩ := constrained_lockstep (H' := H') h.wf h'.wf ⟨ha, hs⟩ hinj h0 hr
  exact ⟨s', s1', h1, h2, h3⟩

theorem constrained_transfer {H H' : ScoredHeap} {g g' : DirectedGraph} (h : Built g) (h' : Built g')
    {cost heuristic cost' heuristic' : ScoreFn} {start end_ : VertexId} {cs : List Constraint}
    (ha : Agree g g' (AStar.sumScore cost heuristic) (AStar.sumScore cost' heuristic') start)
    (hinj : ∀ x y, Unpruned g (AStar.sumScore cost heuristic) cs start x → Unpruned g (AStar.sumScore cost heuristic) cs start y →
      x.score = y.score → x = y)
    {r : Option ScoredPath} (hr : Returns (AStar.constrainedShortestPath H g cost heuristic start end_ cs) r) :
    Returns (AStar.constrainedShortestPath H' g' cost' heuristic' start end_ cs) r := by
  obtain ⟨it, h1, h2⟩ := constrained_inv hr
  obtain ⟨out, it1, h3, h4, h5⟩ := find_inv ConstrainedBestFirstIter.mono_next h2
  obtain ⟨s', s1', k1, k2, k3, k4⟩ := constrained_lockstep (H' := H') h.wf h'.wf ha hinj h1 h3
  unfold AStar.constrainedShortestPath
  rw [k1]
  refine Returns.bind (Returns.lift_done _) ?_
  rcases h5 with ⟨rfl, h5⟩ | ⟨x, s2, rfl, h6, h7⟩
  · have := (k2.drains (.nil (k3 h5))).find (AStar.isSolution end_ cs)
    rw [List.append_nil] at this
    rwa [List.find?_eq_none.2 fun y hy => by simp [h4 y hy]] at this
  · obtain ⟨s2', k5⟩ := k4 x s2 h7
    exact k2.find_some h4 k5 h6

/-- C125: if no two unpruned walks have the same score, whether `constrained_shortest_path` returns and what depends only on the edges of the
graph, the costs, the heuristic and the constraints. -/
theorem C125_answer (H H' : ScoredHeap) (g g' : DirectedGraph) (h : Built g) (h' : Built g') (ha : ∀ u v, Adj g u v ↔ Adj g' u v)
    (cost heuristic cost' heuristic' : ScoreFn) (start end_ : VertexId) (cs : List Constraint)
    (hs : ∀ p : Path, WalkFrom g start p.vertices → cost' g' p = cost g p ∧ heuristic' g' p = heuristic g p)
    (hinj : ∀ x y, Unpruned g (AStar.sumScore cost heuristic) cs start x → Unpruned g (AStar.sumScore cost heuristic) cs start y →
      x.score = y.score → x = y) (r : Option ScoredPath) :
    Returns (AStar.constrainedShortestPath H g cost heuristic start end_ cs) r ↔
      Returns (AStar.constrainedShortestPath H' g' cost' heuristic' start end_ cs) r := by
  have hag : Agree g g' (AStar.sumScore cost heuristic) (AStar.sumScore cost' heuristic') start := ⟨ha, fun p hp => by
    unfold AStar.sumScore
    rw [(hs p hp).1, (hs p hp).2]⟩
  exact ⟨constrained_transfer h h' hag hinj, constrained_transfer h' h hag.symm
    (fun x y hx hy => hinj x y (hag.symm.unpruned hx) (hag.symm.unpruned hy))⟩

/-! A case of the hypotheses: walks without a repeated vertex in `exIterGraph`, scored by their digits. -/

theorem exDigits_unpruned (cs : List Constraint) (x y : ScoredPath)
    (hx : Unpruned exIterGraph (AStar.sumScore (fun _ p => .done (exDigits p)) AStar.zeroHeuristic) (.Not .ContainsCycle :: cs) 1 x)
    (hy : Unpruned exIterGraph (AStar.sumScore (fun _ p => .done (exDigits p)) AStar.zeroHeuristic) (.Not .ContainsCycle :: cs) 1 y)
    (he : x.score = y.score) : x = y := by
  have hsimple : ∀ x, Unpruned exIterGraph (AStar.sumScore (fun _ p => .done (exDigits p)) AStar.zeroHeuristic) (.Not .ContainsCycle :: cs) 1 x →
      SimplePathFrom exIterGraph 1 x.path.vertices := by
    intro x hx
    refine ⟨hx.1.1, hx.1.2, ?_⟩
    by_cases hl : 2 ≤ x.path.vertices.length
    · obtain ⟨_, _, h1⟩ := hx.2.2 x.path (List.prefix_refl _) hl
      have h2 : ¬ RepeatsVertex x.path := h1 (.Not .ContainsCycle) (by simp)
      rw [List.nodup_iff_getElem?_ne_getElem?]
      intro i j hij hj he
      exact h2 ⟨i, j, x.path.vertices[j], hij, by unfold At; rw [he, List.getElem?_eq_getElem hj], List.getElem?_eq_getElem hj⟩
    · rcases hv : x.path.vertices with _ | ⟨a, _ | ⟨b, l⟩⟩
      · simp
      · simp
      · rw [hv] at hl
        simp at hl
  have hsc : ∀ x, Unpruned exIterGraph (AStar.sumScore (fun _ p => .done (exDigits p)) AStar.zeroHeuristic) (.Not .ContainsCycle :: cs) 1 x →
      x.score = exDigits x.path := by
    intro x hx
    have h1 := exDigits_scores (fun _ _ => Iff.rfl) x.path (hsimple x hx)
    rw [hx.2.1] at h1
    exact Run.done.inj h1
  exact hx.ext hy (exDigits_inj _ _ (hsimple x hx) (hsimple y hy) (by rw [← hsc x hx, ← hsc y hy, he]))

/-- The score and constraints of the example. -/
abbrev exScore : ScoreFn := AStar.sumScore (fun _ p => .done (exDigits p)) AStar.zeroHeuristic

theorem exDigitStream : ∃ it it' : ConstrainedBestFirstIter exHeap, ConstrainedBestFirstIter.from_ exIterGraph exScore 1 = .done it ∧
    IterRun (ConstrainedBestFirstIter.next exIterGraph exScore [.Not .ContainsCycle, .Not (.ContainsEdge ⟨1, 3⟩)]) it
      [⟨⟨[1]⟩, 1⟩, ⟨⟨[1, 2]⟩, 21⟩, ⟨⟨[1, 2, 4]⟩, 421⟩] it' ∧
    Returns (ConstrainedBestFirstIter.next exIterGraph exScore [.Not .ContainsCycle, .Not (.ContainsEdge ⟨1, 3⟩)] it') none := by
  let st (l : List ScoredPath) : ConstrainedBestFirstIter exHeap := ⟨⟨(l.map Reverse.mk : List (Reverse ScoredPath))⟩⟩
  have hs : exScore exIterGraph (Path.empty.append 1) = .done 1 := by decide
  have h0 : ConstrainedBestFirstIter.from_ exIterGraph exScore 1 = .done (st [⟨⟨[1]⟩, 1⟩]) := by
    unfold ConstrainedBestFirstIter.from_
    rw [hs]
    rfl
  have h1 : ConstrainedBestFirstIter.next exIterGraph exScore [.Not .ContainsCycle, .Not (.ContainsEdge ⟨1, 3⟩)] (st [⟨⟨[1]⟩, 1⟩]) 9 =
      .done (some (⟨⟨[1]⟩, 1⟩, st [⟨⟨[1, 2]⟩, 21⟩])) := by with_unfolding_all rfl
  have h2 : ConstrainedBestFirstIter.next exIterGraph exScore [.Not .ContainsCycle, .Not (.ContainsEdge ⟨1, 3⟩)] (st [⟨⟨[1, 2]⟩, 21⟩]) 9 =
      .done (some (⟨⟨[1, 2]⟩, 21⟩, st [⟨⟨[1, 2, 4]⟩, 421⟩])) := by with_unfolding_all rfl
  have h3 : ConstrainedBestFirstIter.next exIterGraph exScore [.Not .ContainsCycle, .Not (.ContainsEdge ⟨1, 3⟩)] (st [⟨⟨[1, 2, 4]⟩, 421⟩]) 9 =
      .done (some (⟨⟨[1, 2, 4]⟩, 421⟩, st [])) := by with_unfolding_all rfl
  have h4 : ConstrainedBestFirstIter.next exIterGraph exScore [.Not .ContainsCycle, .Not (.ContainsEdge ⟨1, 3⟩)] (st []) 9 = .done none := rfl
  refine ⟨st [⟨⟨[1]⟩, 1⟩], st [], h0, ((IterRun.refl.step (ConstrainedBestFirstIter.mono_next _ |>.returns h1)).step
    (ConstrainedBestFirstIter.mono_next _ |>.returns h2)).step (ConstrainedBestFirstIter.mono_next _ |>.returns h3),
    ConstrainedBestFirstIter.mono_next _ |>.returns h4⟩

/-- `C125_order`, `C125_end` and `C125_determined` for the walks from 1 that repeat no vertex and do not go from 1 to 3. -/
example (H : ScoredHeap) : (∀ y, WaitsAfter exIterGraph exScore [.Not .ContainsCycle, .Not (.ContainsEdge ⟨1, 3⟩)] 1
      [⟨⟨[1]⟩, 1⟩, ⟨⟨[1, 2]⟩, 21⟩] y → 421 ≤ y.score) ∧
    (∀ y, ¬ WaitsAfter exIterGraph exScore [.Not .ContainsCycle, .Not (.ContainsEdge ⟨1, 3⟩)] 1
      [⟨⟨[1]⟩, 1⟩, ⟨⟨[1, 2]⟩, 21⟩, ⟨⟨[1, 2, 4]⟩, 421⟩] y) ∧
    ∃ it' it1' : ConstrainedBestFirstIter H, ConstrainedBestFirstIter.from_ exIterGraph' exScore 1 = .done it' ∧
      IterRun (ConstrainedBestFirstIter.next exIterGraph' exScore [.Not .ContainsCycle, .Not (.ContainsEdge ⟨1, 3⟩)]) it'
        [⟨⟨[1]⟩, 1⟩, ⟨⟨[1, 2]⟩, 21⟩, ⟨⟨[1, 2, 4]⟩, 421⟩] it1' := by
  obtain ⟨it, it', h0, hr, he⟩ := exDigitStream
  refine ⟨(C125_order exHeap _ exIterGraph_built _ _ 1 it it' _ h0 hr 2 _ rfl).2,
    (C125_end exHeap _ exIterGraph_built _ _ 1 it it' _ h0 hr).1 he, ?_⟩
  obtain ⟨a, b, h1, h2, _⟩ := C125_determined exHeap H exIterGraph exIterGraph' exIterGraph_built exIterGraph'_built exIterGraph'_adj exScore
    exScore _ 1 (fun _ _ => rfl) (exDigits_unpruned _) it it' _ h0 hr
  exact ⟨a, b, h1, h2⟩

/-- `C125_answer` for the walks from 1 to 4 that repeat no vertex and do not visit 2: whatever the heap, the walk through 3 is found in
`exIterGraph'`. -/
example (H : ScoredHeap) :
    Returns (AStar.constrainedShortestPath H exIterGraph' (fun _ p => .done (exDigits p)) AStar.zeroHeuristic 1 4
      [.Not .ContainsCycle, .Not (.ContainsVertex 2)]) (some ⟨⟨[1, 3, 4]⟩, 431⟩) := by
  refine (C125_answer exHeap H exIterGraph exIterGraph' exIterGraph_built exIterGraph'_built exIterGraph'_adj _ _ _ _ 1 4
    [.Not .ContainsCycle, .Not (.ContainsVertex 2)] (fun _ _ => ⟨rfl, rfl⟩) (exDigits_unpruned _) _).1 ?_
  unfold AStar.constrainedShortestPath
  exact Mono.returns (n := 19) (Mono.bind (Mono.lift _) fun _ => Mono.find ConstrainedBestFirstIter.mono_next _ _) (by decide +kernel)

end GC
