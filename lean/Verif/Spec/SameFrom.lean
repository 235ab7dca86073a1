/-
Graphs that are the same as far as one can get from a vertex.
-/
import Verif.Spec.Graph
namespace GC

/-- The two graphs have the same edges at all vertices that can be reached from `s` in the first. -/
def SameFrom (g g' : DirectedGraph) (s : VertexId) : Prop := ∀ u, Reach g s u → ∀ v, Adj g u v ↔ Adj g' u v

/-- A command that changes nothing that can be reached from `s`: it adds a vertex, removes a vertex that cannot be reached, or adds or removes an edge
at the start of which one cannot get. -/
def FarFrom (g : DirectedGraph) (s : VertexId) : GraphCommand → Prop
  | .AddVertex _ => True
  | .RemoveVertex v => ¬ Reach g s v
  | .AddEdge a _ => ¬ Reach g s a
  | .RemoveEdge a _ => ¬ Reach g s a

end GC
