/-
Specification for C149: graphs that differ in self-loops only.
-/
import Verif.Spec.Graph
namespace GC

/-- The graphs have the same vertices and the same edges between different vertices. -/
def SameButLoops (g g' : DirectedGraph) : Prop :=
  (∀ v, g.containsVertex v = true ↔ g'.containsVertex v = true) ∧ ∀ u v, u ≠ v → (Adj g u v ↔ Adj g' u v)

end GC
