/-
What gc-csp finds, as a relation between a graph, two vertices, constraints and a number of edges.
-/
import Verif.Model.Search
namespace GC

/-- The search of gc-csp (`constrained_shortest_path` with one for every edge) ends and finds a walk with `k` edges. -/
def FindsWalk (H : ScoredHeap) (g : DirectedGraph) (s t : VertexId) (cs : List Constraint) (k : Int) : Prop :=
  ∃ sp, Returns (AStar.gcCsp H g s t cs) (some sp) ∧ sp.score = k

end GC
