/-
Specification notions for queries that run while gc-build runs.
-/
import Verif.Spec.Graph
namespace GC

/-- The command adds a vertex or an edge of the graph. -/
def GraphCommand.AddsPartOf (g : DirectedGraph) : GraphCommand → Prop
  | .AddVertex v => g.containsVertex v = true
  | .AddEdge a b => g.containsEdge ⟨a, b⟩ = true
  | .RemoveVertex _ => False
  | .RemoveEdge _ _ => False

/-- The command adds something: it is `AddVertex` or `AddEdge`. -/
def GraphCommand.Adds : GraphCommand → Prop
  | .AddVertex _ => True
  | .AddEdge _ _ => True
  | .RemoveVertex _ => False
  | .RemoveEdge _ _ => False

end GC
