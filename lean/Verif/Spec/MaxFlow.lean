/-
Specification of flows in networks.
-/
import Verif.Spec.Graph
import Mathlib.Algebra.BigOperators.Group.Finset.Basic
namespace GC

/-- Sum of the flow on the edges that leave `v`. -/
def outFlow (g : DirectedGraph) (f : Edge → Nat) (v : VertexId) : Nat := ∑ e ∈ g.edges.toFinset with e.src = v, f e

/-- Sum of the flow on the edges that enter `v`. -/
def inFlow (g : DirectedGraph) (f : Edge → Nat) (v : VertexId) : Nat := ∑ e ∈ g.edges.toFinset with e.dst = v, f e

/-- The flow `f` from `s` to `t` respects the capacities, and is conserved at every vertex other than `s` and `t`. -/
def Feasible (g : DirectedGraph) (cap : Edge → UInt64) (s t : VertexId) (f : Edge → Nat) : Prop :=
  (∀ e, g.containsEdge e = true → f e ≤ (cap e).toNat) ∧
  ∀ v, g.containsVertex v = true → v ≠ s → v ≠ t → inFlow g f v = outFlow g f v

/-- Net flow out of `v`. -/
def netOut (g : DirectedGraph) (f : Edge → Nat) (v : VertexId) : Int := (outFlow g f v : Int) - (inFlow g f v : Int)

/-- `n` is the greatest value of a feasible flow from `s` to `t`. -/
def IsMaxFlowValue (g : DirectedGraph) (cap : Edge → UInt64) (s t : VertexId) (n : Nat) : Prop :=
  (∃ f, Feasible g cap s t f ∧ netOut g f s = n) ∧ ∀ f, Feasible g cap s t f → netOut g f s ≤ n

/-- A set of vertices with `s` inside and `t` outside. -/
def IsCut (s t : VertexId) (S : VertexId → Bool) : Prop := S s = true ∧ S t = false

/-- Sum of the capacities of the edges leaving the set `S`. -/
def cutCapacity (g : DirectedGraph) (cap : Edge → UInt64) (S : VertexId → Bool) : Nat :=
  ∑ e ∈ g.edges.toFinset with S e.src = true ∧ S e.dst = false, (cap e).toNat

end GC
