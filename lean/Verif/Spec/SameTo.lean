/-
Specification for C150: graphs that are the same for who wants to get to a vertex.
-/
import Verif.Spec.Graph
namespace GC

/-- The two graphs have the same edges to all vertices from which `t` can be reached in the first. -/
def SameTo (g g' : DirectedGraph) (t : VertexId) : Prop := ∀ v, Reach g v t → ∀ u, Adj g u v ↔ Adj g' u v

/-- A command that changes no way to `t`: it adds a vertex, removes one from which `t` cannot be reached, or adds or removes an edge to one
from which `t` cannot be reached. -/
def AsideOf (g : DirectedGraph) (t : VertexId) : GraphCommand → Prop
  | .AddVertex _ => True
  | .RemoveVertex v => ¬ Reach g v t
  | .AddEdge _ b => ¬ Reach g b t
  | .RemoveEdge _ b => ¬ Reach g b t

end GC
