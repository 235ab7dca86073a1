/-
Property C55: exactly when the value reported by max_flow is the maximum.
-/
import Verif.Props.MaxFlow
import Verif.Proofs.Residual
namespace GC
open DirectedGraph Path MaxFlow

/-- The flow on the edge `e` in a returned map, 0 if there is no such edge. -/
def reportedFlow (m : FlowMap) (e : Edge) : Nat := ((HMap.get? m e).map Prod.fst).getD 0

/-- C55: exactly when the reported value is the maximum: when the returned flow cannot be rerouted to let one unit more get from `s` to `t`, and
also exactly when the reported value is the capacity of some cut. So a caller can see from the returned map whether the value is right.
Missing: that this is always so, see `C55_counterexample`. -/
theorem C55_maximum_iff_partial (g : DirectedGraph) (h : Built g) (cap : Edge → UInt64) (s t : VertexId) (hst : s ≠ t) (n : Nat) (m : FlowMap)
    (hr : Returns (maxFlow g cap s t) (n, m)) :
    (IsMaxFlowValue g cap s t n ↔ ¬ Relation.ReflTransGen (CanShift g cap (reportedFlow m)) s t) ∧
    (IsMaxFlowValue g cap s t n ↔ ∃ S, IsCut s t S ∧ cutCapacity g cap S = n) := by
  obtain ⟨f, h1, h2, _⟩ := maxFlow_result h hst hr
  have e : ∀ u v, CanShift g cap (reportedFlow m) u v ↔ CanShift g cap f u v := by
    have key : ∀ e, g.containsEdge e = true → reportedFlow m e = f e := by
      intro e he
      have := h1.2 e
      rw [if_pos he] at this
      unfold reportedFlow
      rw [this]
      rfl
    intro u v
    unfold CanShift
    constructor
    · rintro (⟨a, b⟩ | ⟨a, b⟩)
      · exact .inl ⟨a, key _ a ▸ b⟩
      · exact .inr ⟨a, key _ a ▸ b⟩
    · rintro (⟨a, b⟩ | ⟨a, b⟩)
      · exact .inl ⟨a, (key _ a).symm ▸ b⟩
      · exact .inr ⟨a, (key _ a).symm ▸ b⟩
  have e' : CanShift g cap (reportedFlow m) = CanShift g cap f := by
    funext u v
    exact propext (e u v)
  rw [e']
  exact ⟨max_iff_no_shift h.wf hst h2.feasible h2.value, max_iff_cut h.wf hst h2.feasible h2.value⟩

/-- On the network of `C55_counterexample` the reported flow can be rerouted: along 1→3, back over 2→3, along 2→4. -/
example (m : FlowMap) (hr : Returns (maxFlow exReroute (fun _ => 1) 1 4) (1, m)) :
    Relation.ReflTransGen (CanShift exReroute (fun _ => 1) (reportedFlow m)) 1 4 := by
  by_contra hno
  exact C55_counterexample.2.2.1 ((C55_maximum_iff_partial exReroute C55_counterexample.1 _ 1 4 (by decide) 1 m hr).1.2 hno)

end GC
