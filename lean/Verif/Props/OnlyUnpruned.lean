/-
C147, constrained search: constraints that prune spare the closures the longer walks.
-/
import Verif.Proofs.OnlyUnpruned
import Verif.Proofs.Agree
import Verif.Props.OnlyWalks
import Verif.Props.Search
namespace GC
open AStar

/-- C147: `constrained_shortest_path` asks for scores of the start and of the walks that prolong by one edge a walk the constraints do not
prune: closures that agree there give the same answer, panic or endless run. -/
theorem C147_unpruned (H : ScoredHeap) (g : DirectedGraph) (h : Built g) (s t : VertexId) (cs : List Constraint)
    (cost cost' heuristic heuristic' : ScoreFn)
    (h0 : cost g ⟨[s]⟩ = cost' g ⟨[s]⟩ ∧ heuristic g ⟨[s]⟩ = heuristic' g ⟨[s]⟩)
    (h1 : ∀ (x : ScoredPath) (v : VertexId), Unpruned g (sumScore cost heuristic) cs s x → WalkFrom g s (x.path.vertices ++ [v]) →
      cost g ⟨x.path.vertices ++ [v]⟩ = cost' g ⟨x.path.vertices ++ [v]⟩ ∧
      heuristic g ⟨x.path.vertices ++ [v]⟩ = heuristic' g ⟨x.path.vertices ++ [v]⟩) :
    constrainedShortestPath H g cost heuristic s t cs = constrainedShortestPath H g cost' heuristic' s t cs := by
  have hf0 : sumScore cost heuristic g (Path.empty.append s) = sumScore cost' heuristic' g (Path.empty.append s) := by
    unfold sumScore
    rw [show Path.empty.append s = ⟨[s]⟩ from rfl, h0.1, h0.2]
  have hf1 : ∀ x u v, Unpruned g (sumScore cost heuristic) cs s x → x.path.vertices.getLast? = some u → Adj g u v →
      sumScore cost heuristic g (x.path.append v) = sumScore cost' heuristic' g (x.path.append v) := fun x u v hx hl ha => by
    have hw : WalkFrom g s (x.path.vertices ++ [v]) :=
      ⟨chain_append hx.1.1 hl ha, by rw [List.head?_append, hx.1.2, Option.some_or]⟩
    obtain ⟨k1, k2⟩ := h1 x v hx hw
    unfold sumScore
    rw [show x.path.append v = ⟨x.path.vertices ++ [v]⟩ from rfl, k1, k2]
  funext n
  unfold constrainedShortestPath
  simp only [Prog.bind, Prog.lift]
  rw [show ConstrainedBestFirstIter.from_ (H := H) g (sumScore cost' heuristic') s = ConstrainedBestFirstIter.from_ g (sumScore cost heuristic) s by
    unfold ConstrainedBestFirstIter.from_; rw [hf0]]
  cases hi : ConstrainedBestFirstIter.from_ (H := H) g (sumScore cost heuristic) s with
  | running => rfl
  | panicked => rfl
  | done it =>
    rw [Run.bind_done, Run.bind_done, (unpruned_agree h.wf hf1).find _ fun sp hsp => (CInv.init cs hi).node sp (by simpa using hsp)]

/-- C147: under `MaxLength n` only the scores of walks with at most `n + 1` vertices (or two, if `n` is 0) matter. -/
theorem C147_max_length (H : ScoredHeap) (g : DirectedGraph) (h : Built g) (s t : VertexId) (cs : List Constraint) (n : Nat)
    (hn : .MaxLength n ∈ cs) (cost cost' heuristic heuristic' : ScoreFn)
    (hc : ∀ l, WalkFrom g s l → l.length ≤ max n 1 + 1 → cost g ⟨l⟩ = cost' g ⟨l⟩ ∧ heuristic g ⟨l⟩ = heuristic' g ⟨l⟩) :
    constrainedShortestPath H g cost heuristic s t cs = constrainedShortestPath H g cost' heuristic' s t cs := by
  refine C147_unpruned H g h s t cs _ _ _ _ (hc [s] ⟨.singleton s, rfl⟩ (by simp)) fun x v hx hw => hc _ hw ?_
  rw [List.length_append, List.length_singleton]
  by_cases h2 : 2 ≤ x.path.vertices.length
  · obtain ⟨_, _, hk⟩ := hx.2.2 x.path (List.prefix_refl _) h2
    have : x.path.vertices.length ≤ n := hk _ hn
    omega
  · omega

/-- The number of edges, for walks with at most `n` vertices only. -/
def exShy (n : Nat) : ScoreFn := fun _ p => if p.vertices.length ≤ n then .done (p.vertices.length - 1) else .panicked

/-- Under `MaxLength 2` the closure that panics on more than 3 vertices is as good as one that never panics, and the search ends. -/
example (t : VertexId) : constrainedShortestPath exHeap exIterGraph (exShy 3) zeroHeuristic 1 t [.MaxLength 2] =
    constrainedShortestPath exHeap exIterGraph (fun _ p => .done (p.vertices.length - 1)) zeroHeuristic 1 t [.MaxLength 2] := by
  refine C147_max_length _ _ exIterGraph_built 1 t _ 2 (by simp) _ _ _ _ fun l _ hl => ⟨?_, rfl⟩
  have hl : l.length ≤ 3 := hl
  show (if l.length ≤ 3 then _ else _) = _
  rw [if_pos hl]

example : constrainedShortestPath exHeap exIterGraph (exShy 3) zeroHeuristic 1 4 [.MaxLength 2] 9 = .done none ∧
    constrainedShortestPath exHeap exIterGraph (exShy 3) zeroHeuristic 1 3 [.MaxLength 2] 9 = .done (some ⟨⟨[1, 3]⟩, 1⟩) := by
  constructor <;> decide

/-- The bound is exact: walks with 3 vertices are scored before they are dropped. -/
example : constrainedShortestPath exHeap exIterGraph (exShy 2) zeroHeuristic 1 4 [.MaxLength 2] 9 = .panicked := by decide

/-- So are walks with 2 vertices under `MaxLength 0`. -/
example : constrainedShortestPath exHeap exIterGraph (exShy 1) zeroHeuristic 1 4 [.MaxLength 0] 9 = .panicked := by decide

/-- C147: if cycles are excluded, only the scores of walks whose vertices before the last are distinct matter. -/
theorem C147_no_cycle (H : ScoredHeap) (g : DirectedGraph) (h : Built g) (s t : VertexId) (cs : List Constraint)
    (hn : .Not .ContainsCycle ∈ cs) (cost cost' heuristic heuristic' : ScoreFn)
    (hc : ∀ l, WalkFrom g s l → l.dropLast.Nodup → cost g ⟨l⟩ = cost' g ⟨l⟩ ∧ heuristic g ⟨l⟩ = heuristic' g ⟨l⟩) :
    constrainedShortestPath H g cost heuristic s t cs = constrainedShortestPath H g cost' heuristic' s t cs := by
  refine C147_unpruned H g h s t cs _ _ _ _ (hc [s] ⟨.singleton s, rfl⟩ (by simp)) fun x v hx hw => hc _ hw ?_
  rw [List.dropLast_concat]
  by_cases h2 : 2 ≤ x.path.vertices.length
  · obtain ⟨_, _, hk⟩ := hx.2.2 x.path (List.prefix_refl _) h2
    have hr : ¬ RepeatsVertex x.path := hk _ hn
    by_contra hnd
    exact hr (repeats_iff.2 hnd)
  · match hl : x.path.vertices with
    | [] => simp
    | [a] => simp
    | a :: b :: l => rw [hl] at h2; simp at h2

/-- The number of edges, for walks without repeated vertex before the last only. -/
def exTidy : ScoreFn := fun _ p => if p.vertices.dropLast.Nodup then .done (p.vertices.length - 1) else .panicked

/-- With the graph's cycle 1, 2, 4, 1 excluded this closure is as good as one that never panics. -/
example (t : VertexId) : constrainedShortestPath exHeap exIterGraph exTidy zeroHeuristic 1 t [.Not .ContainsCycle] =
    constrainedShortestPath exHeap exIterGraph (fun _ p => .done (p.vertices.length - 1)) zeroHeuristic 1 t [.Not .ContainsCycle] := by
  refine C147_no_cycle _ _ exIterGraph_built 1 t _ (by simp) _ _ _ _ fun l _ hl => ⟨?_, rfl⟩
  show (if l.dropLast.Nodup then _ else _) = _
  rw [if_pos hl]

/-- Without the constraint it panics. -/
example : constrainedShortestPath exHeap exIterGraph exTidy zeroHeuristic 1 9 [.Not .ContainsCycle] 12 = .done none ∧
    constrainedShortestPath exHeap exIterGraph exTidy zeroHeuristic 1 9 [] 12 = .panicked := by
  constructor <;> decide

/-- C147: conversely, every walk that prolongs an item of the constrained iteration by one edge was scored: a closure that panics on one
of them keeps the iteration from yielding the item. -/
theorem C147_all_scored (H : ScoredHeap) (g : DirectedGraph) (h : Built g) (f : ScoreFn) (cs : List Constraint) (s : VertexId)
    (it it' : ConstrainedBestFirstIter H) (out : List ScoredPath) (h0 : ConstrainedBestFirstIter.from_ g f s = .done it)
    (hr : IterRun (ConstrainedBestFirstIter.next g f cs) it out it') (x : ScoredPath) (hx : x ∈ out) (v : VertexId)
    (hw : WalkFrom g s (x.path.vertices ++ [v])) : f g ⟨x.path.vertices ++ [v]⟩ ≠ .panicked := by
  have hi := cinv_run h.wf h0 hr
  have hh := (hi.node x (by simp [hx])).1.2
  cases hl : x.path.vertices.getLast? with
  | none => rw [List.getLast?_eq_none_iff.1 hl] at hh; cases hh
  | some u =>
    have ha : Adj g u v := (List.isChain_append.1 hw.1).2.2 u hl v rfl
    obtain ⟨sc, hs, _⟩ := hi.closed x hx u v hl ha
    rw [show (⟨x.path.vertices ++ [v]⟩ : Path) = x.path.append v from rfl, hs]
    simp

/-- In the example stream of C31 the walk 2, 4, 1 is yielded; so 2, 4, 1, 3 was scored although 3 is excluded. -/
example : WalkFrom exIterGraph 2 [2, 4, 1, 3] ∧ sumScore oneWeightedEdge zeroHeuristic exIterGraph ⟨[2, 4, 1, 3]⟩ ≠ .panicked := by
  obtain ⟨it, it', h0, hr, _⟩ := exStream
  have hw : WalkFrom exIterGraph 2 [2, 4, 1, 3] := by
    refine ⟨?_, rfl⟩
    simp only [List.isChain_cons_cons, Adj]
    exact ⟨by decide, by decide, by decide, .singleton 3⟩
  exact ⟨hw, C147_all_scored _ _ exIterGraph_built _ _ _ it it' _ h0 hr ⟨⟨[2, 4, 1]⟩, 2⟩ (by simp) 3 hw⟩

end GC
