/-
Ways to show that a concrete graph or argument meets the hypotheses of a property, used by the examples beside the properties.
-/
import Verif.Proofs.GraphCommands
import Verif.Proofs.Args
import Verif.Spec.Store
namespace GC
open DirectedGraph

/-- The graph built by these commands. -/
abbrev graphOf (cs : List GraphCommand) : DirectedGraph := GraphCommand.applyCommands cs .new

instance (g : DirectedGraph) (u v : VertexId) : Decidable (Adj g u v) := inferInstanceAs (Decidable (_ = true))

theorem graphOf_built (cs : List GraphCommand) : Built (graphOf cs) := Built.new.applyCommands cs

theorem adj_graphOf {cs : List GraphCommand} {u v : VertexId} : Adj (graphOf cs) u v ↔ ⟨u, v⟩ ∈ (graphOf cs).edges :=
  (graphOf_built cs).wf.mem_edges.symm

theorem acyclic_graphOf {cs : List GraphCommand} (f : VertexId → Nat) (h : ∀ e ∈ (graphOf cs).edges, f e.src < f e.dst) :
    Acyclic (graphOf cs) := by
  have key : ∀ u v, Relation.TransGen (Adj (graphOf cs)) u v → f u < f v := by
    intro u v huv
    induction huv with
    | single h1 => exact h _ (adj_graphOf.1 h1)
    | tail _ h1 ih => exact ih.trans (h _ (adj_graphOf.1 h1))
  exact fun v hv => absurd (key v v hv) (Nat.lt_irrefl _)

theorem loopFree_graphOf {cs : List GraphCommand} (h : ∀ e ∈ (graphOf cs).edges, e.src ≠ e.dst) : LoopFree (graphOf cs) :=
  fun _ hv => h _ (adj_graphOf.1 hv) rfl

theorem argId_of {t : Text} {v : VertexId} (h : Args.parseVertexId t = some v.id) : ArgId t v := parseVertexId_iff.1 h

theorem isOrder_id : Store.IsOrder id := fun _ => .refl _

end GC
