/-
Property C114: iterators as objects that are called again and again.
-/
import Verif.Proofs.Objects
import Verif.Props.Iter
import Verif.Props.Cycle
namespace GC
open DirectedGraph Objects

/-- C114: for any number of calls of `next` on the object given by `dfs_iter_from(g, s)`, the answers are the vertices that can be reached
from `s`, one by one and each once, `s` first, and then only `None`. -/
theorem C114_dfs (g : DirectedGraph) (h : Built g) (s : VertexId) :
    ∃ out, Enumerates (depthFirst g) (DepthFirstIter.from_ s) out ∧ out.Nodup ∧ out.head? = some s ∧ ∀ v, v ∈ out ↔ Reach g s v := by
  obtain ⟨xs, h1, h2, h3, h4⟩ := dfs_drains h.wf s
  exact ⟨xs, (depthFirst_obj g).enumerates h1, h2, h3, fun v => (h4 v).trans h.wf.reachBy_iff⟩

/-- C114: the same for `bfs_iter_from(g, s)`. -/
theorem C114_bfs (g : DirectedGraph) (h : Built g) (s : VertexId) :
    ∃ out, Enumerates (breadthFirst g) (BreadthFirstIter.from_ s) out ∧ out.Nodup ∧ ∀ v, v ∈ out ↔ Reach g s v := by
  obtain ⟨xs, h1, h2, h3, h4⟩ := bfs_drains h.wf s
  refine ⟨xs, (breadthFirst_obj g).enumerates h1, ?_⟩
  obtain ⟨ys, k1, k2, k3, _⟩ := C25_bfs_exact g h s
  rw [← h1.collect.unique k1] at k2 k3
  exact ⟨k2, k3⟩

/-- C114: the calls of `next` on `dfs_iter_path_from(g, s)` and `bfs_path_iter_from(g, s)` give the simple paths from `s` one by one, each
once, and then only `None`. -/
theorem C114_paths (g : DirectedGraph) (h : Built g) (s : VertexId) :
    (∃ out, Enumerates (depthFirstPath g) (DepthFirstPathIter.from_ s) out ∧ out.Nodup ∧
      ∀ p : Path, p ∈ out ↔ SimplePathFrom g s p.vertices) ∧
    ∃ out, Enumerates (breadthFirstPath g) (BreadthFirstPathIter.from_ s) out ∧ out.Nodup ∧
      ∀ p : Path, p ∈ out ↔ SimplePathFrom g s p.vertices := by
  obtain ⟨xs, h1, h2, h3⟩ := dfs_path_drains h.wf s
  obtain ⟨ys, k1, k2, _, k3⟩ := bfs_path_drains h.wf s
  exact ⟨⟨xs, (depthFirstPath_obj g).enumerates h1, h2, h3⟩, ys, (breadthFirstPath_obj g).enumerates k1, k2, k3⟩

/-- C114: the calls of `next` on `best_iter_from` give scored simple paths, exactly one to each reachable vertex, and then only `None`. -/
theorem C114_best (H : ScoredHeap) (g : DirectedGraph) (h : Built g) (s : VertexId) (scorefn : ScoreFn) (f : Path → Int)
    (hf : ScoresBy g s scorefn f) :
    ∃ it out, BestFirstIter.from_ (H := H) g scorefn s = .done it ∧ Enumerates (bestFirst g scorefn) it out ∧
      (∀ sp ∈ out, SimplePathFrom g s sp.path.vertices ∧ sp.score = f sp.path) ∧
      (out.map fun sp => sp.path.vertices.getLast?).Nodup ∧
      ∀ v, (∃ sp ∈ out, sp.path.vertices.getLast? = some v) ↔ Reach g s v := by
  obtain ⟨it, xs, h1, h2, _⟩ := best_drains (H := H) h.wf hf
  obtain ⟨it', ys, k1, k2, k3, k4, k5⟩ := C29_best_first H g h s scorefn f hf
  rw [h1] at k1
  cases k1
  rw [← h2.collect.unique k2] at k3 k4 k5
  exact ⟨it, xs, h1, (bestFirst_obj g scorefn).enumerates h2, k3, k4, k5⟩

/-- `C114_best` with the length of the path as its score. -/
example (H : ScoredHeap) := C114_best H exIterGraph (Built.new.applyCommands _) 1 (fun _ p => .done p.vertices.length) (fun p => p.vertices.length)
  (fun _ _ => rfl)

/-- C114: the calls of `next` on `cycle_iter` give the cycles that `take_all` collects, and those on `iter_hamiltonian_paths` the Hamiltonian
paths, each once, and then only `None`. -/
theorem C114_cycles_and_hamiltonian_paths (g : DirectedGraph) (h : Built g) :
    (∃ cs, Enumerates (cycle g) (CycleIter.cycleIter g) cs ∧ Returns (CycleAlg.takeAll g) cs ∧ cs.Nodup ∧
      ∀ c ∈ cs, IsCycle g c.vertices ∧ SmallestFirst c.vertices) ∧
    ∃ ps, Enumerates (hamiltonian g) (Hamiltonian.iter g) ps ∧ ps.Nodup ∧
      ∀ p : Path, p ∈ ps ↔ p.vertices ≠ [] ∧ HamiltonianPath g p.vertices := by
  obtain ⟨cs, h1, h2, h3⟩ := cycle_drains h.wf
  obtain ⟨ps, k1, k2, k3⟩ := hamiltonian_drains h.wf
  exact ⟨⟨cs, (cycle_obj g).enumerates h1, h1.collect, h2, fun c hc => ⟨((h3 c).1 hc).1, ((h3 c).1 hc).2.1⟩⟩,
    ps, (hamiltonian_obj g).enumerates k1, k2, k3⟩

/-- C114: in every state, also in states no constructor gives, for every closure and also when the iteration is infinite: an iterator that
has answered `None` answers only `None` from then on. -/
theorem C114_stays_ended (g : DirectedGraph) (H : ScoredHeap) (scorefn : ScoreFn) (cs : List Constraint) :
    (∀ s, StaysEnded (depthFirst g) s) ∧ (∀ s, StaysEnded (depthFirstPath g) s) ∧ (∀ s, StaysEnded (breadthFirst g) s) ∧
    (∀ s, StaysEnded (breadthFirstPath g) s) ∧ (∀ s : BestFirstIter H, StaysEnded (bestFirst g scorefn) s) ∧
    (∀ s : ConstrainedBestFirstIter H, StaysEnded (constrained g scorefn cs) s) ∧ (∀ s, StaysEnded (cycle g) s) ∧
    ∀ s, StaysEnded (hamiltonian g) s :=
  ⟨(depthFirst_obj g).staysEnded, (depthFirstPath_obj g).staysEnded, (breadthFirst_obj g).staysEnded, (breadthFirstPath_obj g).staysEnded,
    (bestFirst_obj g scorefn).staysEnded, (constrained_obj g scorefn cs).staysEnded, (cycle_obj g).staysEnded,
    (hamiltonian_obj g).staysEnded⟩

/-- Example: seven calls on an iterator over four vertices, five on one over two cycles. -/
example :
    Objects.calls (depthFirst exIterGraph) 7 (DepthFirstIter.from_ 1) 6 = .done [some 1, some 3, some 4, some 2, none, none, none] ∧
    Objects.calls (cycle exCycleGraph) 5 (CycleIter.cycleIter exCycleGraph) 30 =
      .done [some ⟨[1, 2, 4, 3]⟩, some ⟨[1, 2, 3]⟩, none, none, none] ∧
    Objects.calls (hamiltonian exCycleGraph) 6 (Hamiltonian.iter exCycleGraph) 30 =
      .done [some ⟨[1, 2, 4, 3]⟩, some ⟨[2, 4, 3, 1]⟩, some ⟨[3, 1, 2, 4]⟩, some ⟨[4, 3, 1, 2]⟩, none, none] := by
  decide

end GC
