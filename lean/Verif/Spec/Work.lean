/-
How much work programs do, counted in rounds of their loops, and a family of graphs with many paths.
-/
import Verif.Model.Prog
import Verif.Spec.Graph
namespace GC
namespace Work

/-- The program returns `a`, and none of its loops goes round more than `n` times. (`p m` is the program `p` stopped as soon as one of its
loops would go round for the `m + 1`-th time.) Loops over lists that are known when the loop begins do not count. -/
def ReturnsWithin {α : Type} (n : Nat) (p : Prog α) (a : α) : Prop := ∀ m, n ≤ m → p m = .done a

/-- The program is not finished (it has neither returned nor panicked) when one of its loops has gone round `n` times. -/
def Needs {α : Type} (n : Nat) (p : Prog α) : Prop := ∀ m, m ≤ n → p m = .running

/-- The vertex with the given number. -/
def vertex (k : Nat) : VertexId := ⟨UInt64.ofNat k⟩

/-- A chain of `n` diamonds: from the vertices `3 * i + 1` two edges go to `3 * i + 2` and `3 * i + 3`, and from these to `3 * i + 4`. There
are `3 * n + 1` vertices, `4 * n` edges, no cycle, and `2 ^ n` paths from the first to the last vertex. -/
structure Diamonds (n : Nat) (g : DirectedGraph) : Prop where
  vertices : ∀ v, g.containsVertex v = true ↔ ∃ k, 1 ≤ k ∧ k ≤ 3 * n + 1 ∧ v = vertex k
  edges : ∀ u v, Adj g u v ↔ ∃ i, i < n ∧
    ((u = vertex (3 * i + 1) ∧ (v = vertex (3 * i + 2) ∨ v = vertex (3 * i + 3))) ∨
      ((u = vertex (3 * i + 2) ∨ u = vertex (3 * i + 3)) ∧ v = vertex (3 * i + 4)))

end Work
end GC
