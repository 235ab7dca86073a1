/- Specification of topological orders. -/
import Verif.Spec.Graph
namespace GC

/-- `u` occurs before `v` in `l`. -/
def Before (l : List VertexId) (u v : VertexId) : Prop := ∃ i j : Nat, i < j ∧ l[i]? = some u ∧ l[j]? = some v

/-- `l` is a topological order of `g`: every vertex once, every edge from an earlier to a later vertex. -/
def TopologicalOrder (g : DirectedGraph) (l : List VertexId) : Prop :=
  l.Nodup ∧ (∀ v, v ∈ l ↔ g.containsVertex v = true) ∧ ∀ u v, Adj g u v → Before l u v

/-- The longest walk that ends in `v` has `n` edges. -/
def LongestWalkTo (g : DirectedGraph) (v : VertexId) (n : Nat) : Prop :=
  (∃ w, IsWalk g w ∧ w.getLast? = some v ∧ w.length = n + 1) ∧ ∀ w, IsWalk g w → w.getLast? = some v → w.length ≤ n + 1

/-- The only cycle of `g` is a self-loop at `u`, and `u` has no other outgoing edge. -/
def OnlyDeadEndLoop (g : DirectedGraph) (u : VertexId) : Prop :=
  Adj g u u ∧ (∀ v, Adj g u v → v = u) ∧ ∀ v, Relation.TransGen (Adj g) v v → v = u

end GC
