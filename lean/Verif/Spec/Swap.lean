/-
Specification vocabulary for C144: when the order of two graph commands matters.
-/
import Verif.Spec.Graph
namespace GC

/-- One command removes something that the other one adds. -/
inductive Clash : GraphCommand → GraphCommand → Prop where
  | vertex (v) : Clash (.AddVertex v) (.RemoveVertex v)
  | source (a b) : Clash (.AddEdge a b) (.RemoveVertex a)
  | target (a b) : Clash (.AddEdge a b) (.RemoveVertex b)
  | edge (a b) : Clash (.AddEdge a b) (.RemoveEdge a b)

/-- The two commands clash, whichever of them comes first. -/
def Conflict (c d : GraphCommand) : Prop := Clash c d ∨ Clash d c

end GC
