/-
Specification for C148: paths without score.
-/
import Verif.Model.Search
namespace GC

/-- The score of a path cannot be computed: the cost or the heuristic panics on it, or their sum is not an `i64`. -/
def NoScore (g : DirectedGraph) (cost heuristic : ScoreFn) (l : List VertexId) : Prop :=
  cost g ⟨l⟩ = .panicked ∨ heuristic g ⟨l⟩ = .panicked ∨
    ∃ a b : Int, cost g ⟨l⟩ = .done a ∧ heuristic g ⟨l⟩ = .done b ∧ ¬ (-2 ^ 63 ≤ a + b ∧ a + b < 2 ^ 63)

end GC
