/-
Specification notions for the size of the command file.
-/
import Verif.Spec.Store
namespace GC
namespace Compact
open Store Text

/-- The lists name every vertex and every edge of the graph exactly once. -/
def Lists (g : DirectedGraph) (vs : List VertexId) (es : List Edge) : Prop :=
  vs.Nodup ∧ es.Nodup ∧ (∀ v, v ∈ vs ↔ g.containsVertex v = true) ∧ ∀ e, e ∈ es ↔ g.containsEdge e = true

/-- The text has an AddVertex line for every vertex of the graph. -/
def NamesAll (g : DirectedGraph) (text : Text) : Prop :=
  ∀ v, g.containsVertex v = true → ∃ l ∈ lines text, GcmdSyntax l (.AddVertex v)

end Compact
end GC
