/- Specification of changed weights. -/
import Verif.Spec.ShortestPath
namespace GC

/-- On every edge of the graph, `w'` is `c` times `w`, and what the potential `p` loses along the edge is added. -/
def Reweighted (g : DirectedGraph) (w w' : Edge → Int) (c : Int) (p : VertexId → Int) : Prop :=
  ∀ u v, Adj g u v → w' ⟨u, v⟩ = c * w ⟨u, v⟩ + p u - p v

/-- The second map has the same keys as the first one; its scores are `c` times the scores of the first one, and what the potential loses from `s` to
the key is added. -/
def RescoredBy (c : Int) (p : VertexId → Int) (s : VertexId) (scores scores' : List (VertexId × ScoredPath)) : Prop :=
  ∀ v k', (∃ sp, (v, sp) ∈ scores' ∧ sp.score = k') ↔ ∃ sp, (v, sp) ∈ scores ∧ k' = c * sp.score + p s - p v

end GC
