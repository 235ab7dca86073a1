/-
C147: on which paths the closures of the best-first searches are called.
-/
import Verif.Proofs.OnlyWalks
import Verif.Props.SameOrder
namespace GC
open AStar

/-- C147: `best_iter_from` yields the same items, panics or runs on alike for closures that agree on the
simple paths from the start without shortcuts. -/
theorem C147_iteration (H : ScoredHeap) (g : DirectedGraph) (h : Built g) (s : VertexId) (f f' : ScoreFn)
    (hf : ∀ p : Path, ChordlessFrom g s p.vertices → f g p = f' g p) :
    BestFirstIter.from_ (H := H) g f s = BestFirstIter.from_ g f' s ∧
    ∀ it, BestFirstIter.from_ (H := H) g f s = .done it →
      Prog.collect (BestFirstIter.next g f) it = Prog.collect (BestFirstIter.next g f') it :=
  ⟨(best_from hf).1, fun it hi => (best_agree h.wf hf).collect ((best_from hf).2 it hi)⟩

/-- C147: `shortest_path` answers the same for cost and heuristic closures that agree on the simple paths from the start without
shortcuts, whatever they answer, or whether they panic, on other paths. -/
theorem C147_shortest_path (H : ScoredHeap) (g : DirectedGraph) (h : Built g) (s t : VertexId) (cost cost' heuristic heuristic' : ScoreFn)
    (hc : ∀ p : Path, ChordlessFrom g s p.vertices → cost g p = cost' g p)
    (hh : ∀ p : Path, ChordlessFrom g s p.vertices → heuristic g p = heuristic' g p) :
    shortestPath H g cost heuristic s t = shortestPath H g cost' heuristic' s t := by
  have hf : ∀ p : Path, ChordlessFrom g s p.vertices → sumScore cost heuristic g p = sumScore cost' heuristic' g p := fun p hp => by
    unfold sumScore
    rw [hc p hp, hh p hp]
  funext n
  unfold shortestPath
  simp only [Prog.bind, Prog.lift]
  rw [← (best_from (H := H) hf).1]
  cases hi : BestFirstIter.from_ (H := H) g (sumScore cost heuristic) s with
  | running => rfl
  | panicked => rfl
  | done it =>
    rw [Run.bind_done, Run.bind_done, (best_agree h.wf hf).find _ ((best_from hf).2 it hi)]

/-- The triangle 1 → 2 → 3 with the shortcut 1 → 3, and an edge to 4. -/
def exShortcut : DirectedGraph := GraphCommand.applyCommands [.AddEdge 1 2, .AddEdge 2 3, .AddEdge 1 3, .AddEdge 3 4] .new

theorem exShortcut_built : Built exShortcut := Built.new.applyCommands _

/-- A cost closure that panics where it need not be called. -/
noncomputable def exFussy (f : ScoreFn) (s : VertexId) : ScoreFn := fun g p => by
  classical exact if ChordlessFrom g s p.vertices then f g p else .panicked

/-- It is as good as the original one. -/
example (f : ScoreFn) (s : VertexId) : ∀ p : Path, ChordlessFrom exShortcut s p.vertices → f exShortcut p = exFussy f s exShortcut p :=
  fun p hp => by rw [exFussy, if_pos hp]

/-- The path 1, 2, 3 is a simple path with a shortcut. -/
example : SimplePathFrom exShortcut 1 [1, 2, 3] ∧ ¬ ChordlessFrom exShortcut 1 [1, 2, 3] ∧
    ∀ f, exFussy f 1 exShortcut ⟨[1, 2, 3]⟩ = .panicked := by
  have hn : ¬ ChordlessFrom exShortcut 1 [1, 2, 3] := fun h => h.2 0 2 1 3 rfl rfl (by decide) (by unfold Adj; decide)
  refine ⟨⟨?_, rfl, by decide⟩, hn, fun f => by rw [exFussy, if_neg hn]⟩
  simp only [List.isChain_cons_cons, Adj]
  exact ⟨by decide, by decide, .singleton 3⟩

/-- C147: no item of `best_iter_from` and no answer of `shortest_path` has a shortcut, even if the shortcut costs more. -/
theorem C147_no_shortcut (H : ScoredHeap) (g : DirectedGraph) (h : Built g) (s t : VertexId) (f cost heuristic : ScoreFn) :
    (∀ it out, BestFirstIter.from_ (H := H) g f s = .done it → Returns (Prog.collect (BestFirstIter.next g f) it) out →
      ∀ x ∈ out, ChordlessFrom g s x.path.vertices) ∧
    ∀ sp, Returns (shortestPath H g cost heuristic s t) (some sp) → ChordlessFrom g s sp.path.vertices := by
  refine ⟨fun it out hi ⟨n, ho⟩ => ?_, fun sp ⟨n, hr⟩ => ?_⟩
  · exact best_collect h.wf ((best_from (f' := f) fun _ _ => rfl).2 it hi) (ho n (Nat.le_refl n))
  · have hr := hr n (Nat.le_refl n)
    unfold shortestPath at hr
    rw [Prog.bind, Prog.lift, Run.bind_eq_done] at hr
    obtain ⟨it, hi, hr⟩ := hr
    exact best_find h.wf ((best_from (f' := sumScore cost heuristic) fun _ _ => rfl).2 it hi) hr

/-- The cost of a path that goes through the expensive edge 1 → 3 is 10, otherwise its number of edges. -/
def exDear : ScoreFn := fun _ p => .done (if p.vertices.take 2 = [1, 3] then 10 else p.vertices.length - 1)

/-- The way 1, 2, 3 costs 2, but the answer is the shortcut, which costs 10. -/
example : exDear exShortcut ⟨[1, 2, 3]⟩ = .done 2 ∧ Returns (shortestPath exHeap exShortcut exDear zeroHeuristic 1 3) (some ⟨⟨[1, 3]⟩, 10⟩) := by
  refine ⟨by decide, ?_⟩
  unfold shortestPath
  exact (Mono.bind (Mono.lift _) fun _ => Mono.find mono_best _ _).returns (n := 9) (by decide)

/-- C147: `constrained_shortest_path` answers the same for closures that agree on the walks from the start. -/
theorem C147_constrained (H : ScoredHeap) (g : DirectedGraph) (h : Built g) (s t : VertexId) (cs : List Constraint)
    (cost cost' heuristic heuristic' : ScoreFn)
    (hc : ∀ v (p : Path), WalkFromTo g s v p.vertices → cost g p = cost' g p)
    (hh : ∀ v (p : Path), WalkFromTo g s v p.vertices → heuristic g p = heuristic' g p) :
    constrainedShortestPath H g cost heuristic s t cs = constrainedShortestPath H g cost' heuristic' s t cs := by
  have hf : ∀ v (p : Path), WalkFromTo g s v p.vertices → sumScore cost heuristic g p = sumScore cost' heuristic' g p := fun v p hp => by
    unfold sumScore
    rw [hc v p hp, hh v p hp]
  funext n
  unfold constrainedShortestPath
  simp only [Prog.bind, Prog.lift]
  rw [← (constrained_from (H := H) hf).1]
  cases hi : ConstrainedBestFirstIter.from_ (H := H) g (sumScore cost heuristic) s with
  | running => rfl
  | panicked => rfl
  | done it =>
    rw [Run.bind_done, Run.bind_done, (constrained_agree h.wf hf cs).find _ ((constrained_from hf).2 it hi)]

/-- `one_weighted_edge` panics on the empty path, which is not a walk: the closure that gives 0 there is as good. -/
example : ∀ v (p : Path), WalkFromTo exIterGraph 1 v p.vertices →
    oneWeightedEdge exIterGraph p = (if p.vertices = [] then .done 0 else oneWeightedEdge exIterGraph p) := by
  rintro v p ⟨_, hp, _⟩
  rw [if_neg]
  intro he
  rw [he] at hp
  cases hp

end GC
