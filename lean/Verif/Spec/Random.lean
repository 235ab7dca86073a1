/-
Specification notions for gc-random.
-/
import Verif.Model.Random
import Verif.Spec.Graph
import Verif.Spec.Store
namespace GC
namespace Random

/-- With `vc` vertices requested, the draw number `k` of the stream `rng` gives the edge `e`. The draws belong to the vertices
1, 2, ..., vc - 1, 1, 2, ... in turn; the edge joins the vertex and the number drawn, goes from the smaller to the larger number, and
counts only if they differ by more than `vc / 10`. -/
def Drawn (rng : Nat → UInt64) (vc : Nat) (k : Nat) (e : Edge) : Prop :=
  1 < vc ∧ ((e.src.id.toNat = 1 + k % (vc - 1) ∧ e.dst.id = rng k) ∨ (e.src.id = rng k ∧ e.dst.id.toNat = 1 + k % (vc - 1))) ∧
  e.src.id.toNat + vc / 10 < e.dst.id.toNat

/-- The stream gives at least `n` different edges. -/
def Gives (rng : Nat → UInt64) (vc n : Nat) : Prop := ∃ l : List Edge, l.Nodup ∧ l.length = n ∧ ∀ e ∈ l, ∃ k, Drawn rng vc k e

/-- The first `n` draws give at least `m` different edges. -/
def GivesIn (rng : Nat → UInt64) (vc n m : Nat) : Prop := ∃ l : List Edge, l.Nodup ∧ l.length = m ∧ ∀ e ∈ l, ∃ k < n, Drawn rng vc k e

/-- The graph of the first `n` draws: their edges, and the endpoints of these. -/
structure GraphOfDraws (rng : Nat → UInt64) (vc n : Nat) (g : DirectedGraph) : Prop where
  edges : ∀ e, g.containsEdge e = true ↔ ∃ k < n, Drawn rng vc k e
  vertices : ∀ v, g.containsVertex v = true ↔ ∃ k < n, ∃ e, Drawn rng vc k e ∧ (v = e.src ∨ v = e.dst)

end Random
end GC
