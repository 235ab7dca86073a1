/-
Specification vocabulary for C147: paths without shortcuts.
-/
import Verif.Spec.Graph
namespace GC

/-- A simple path from `s` without shortcut: no edge leads from one of its vertices to a later one that is not the next. -/
def ChordlessFrom (g : DirectedGraph) (s : VertexId) (l : List VertexId) : Prop :=
  SimplePathFrom g s l ∧ ∀ i j u v, l[i]? = some u → l[j]? = some v → i + 1 < j → ¬ Adj g u v

end GC
