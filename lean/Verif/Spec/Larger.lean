/-
Graphs of which one contains the other.
-/
import Verif.Spec.Graph
namespace GC

/-- `g'` has all vertices and all edges of `g`. -/
structure Larger (g g' : DirectedGraph) : Prop where
  vertices : ∀ v, g.containsVertex v = true → g'.containsVertex v = true
  edges : ∀ e, g.containsEdge e = true → g'.containsEdge e = true

/-- `g'` has the vertices of `g` and all its edges. -/
def MoreEdges (g g' : DirectedGraph) : Prop := Larger g g' ∧ ∀ v, g'.containsVertex v = true → g.containsVertex v = true

end GC
