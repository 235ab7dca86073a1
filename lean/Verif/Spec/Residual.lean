/-
Specification: when the flow on a network can be rerouted.
-/
import Verif.Spec.MaxFlow
namespace GC

/-- With the flow `f`, one unit more can get from `u` to `v`: the edge from `u` to `v` is not full, or a unit on the edge from `v` to `u` can be
taken back. -/
def CanShift (g : DirectedGraph) (cap : Edge → UInt64) (f : Edge → Nat) (u v : VertexId) : Prop :=
  (Adj g u v ∧ f ⟨u, v⟩ < (cap ⟨u, v⟩).toNat) ∨ (Adj g v u ∧ 0 < f ⟨v, u⟩)

end GC
