/- Specification: the functions that report lightest walks. -/
import Verif.Model.ShortestPath
import Verif.Spec.ShortestPath
namespace GC
open ShortestPath

/-- `sc` is what `bellman_ford`, `spfa` or, on an acyclic graph, `dag_shortest_paths` returns for the start `s`. -/
def Reports (g : DirectedGraph) (w : WeightFn) (s : VertexId) (sc : Scores) : Prop :=
  bellmanFord g w s = .done (some sc) ∨ Returns (spfa g w s) sc ∨ (Acyclic g ∧ Returns (dagShortestPaths ⟨g⟩ w s) sc)

/-- The map `sc` gives the vertex `v` the score `k`. -/
def HasScore (sc : List (VertexId × ScoredPath)) (v : VertexId) (k : Int) : Prop := ∃ sp, (v, sp) ∈ sc ∧ sp.score = k

end GC
