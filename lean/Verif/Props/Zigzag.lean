/-
Property C55: how far the value reported by max_flow can be from the maximum.
-/
import Verif.Proofs.Zigzag
namespace GC
open DirectedGraph Path MaxFlow

/-- C55, how wrong it can be: for every `k` there is a network of `6 * k + 2` vertices on which `max_flow` reports 1 although there is a flow of
value `k`. So no constant factor bounds the error, and the bound of `C55_ratio_partial`, half the number of vertices, is at most about three
times too large. -/
theorem C55_unbounded_counterexample (k : Nat) (hk : 0 < k) (hk' : k < 2 ^ 60) :
    ∃ g, Built g ∧ g.vertexCount = 6 * k + 2 ∧ ∃ (cap : Edge → UInt64) (s t : VertexId), s ≠ t ∧
      (∃ m, Returns (maxFlow g cap s t) (1, m)) ∧ ∃ f, Feasible g cap s t f ∧ netOut g f s = k := by
  obtain ⟨f, hf⟩ := Zigzag.greater hk hk'
  refine ⟨Zigzag.network k, Built.new.applyCommands _, Zigzag.vertexCount hk hk', Zigzag.capacity k, Work.vertex 1, Work.vertex (2 * k + 2), ?_,
    Zigzag.reports_one hk hk', f, hf.feasible, hf.value⟩
  intro e
  have := congrArg (fun v : VertexId => v.id.toNat) e
  simp only [Work.toNat_vertex (show 1 < 2 ^ 64 by omega), Work.toNat_vertex (show 2 * k + 2 < 2 ^ 64 by omega)] at this
  omega

/-- A network of 602 vertices where 1 is reported and 100 is possible. -/
example : ∃ g, Built g ∧ g.vertexCount = 602 ∧ ∃ (cap : Edge → UInt64) (s t : VertexId), s ≠ t ∧
    (∃ m, Returns (maxFlow g cap s t) (1, m)) ∧ ∃ f, Feasible g cap s t f ∧ netOut g f s = (100 : Nat) :=
  C55_unbounded_counterexample 100 (by decide) (by decide)

end GC
