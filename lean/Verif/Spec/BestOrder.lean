/-
Specification of the order of best-first iteration (C124, C125), independent of the iterator's queue and visited set.
-/
import Verif.Spec.Graph
import Verif.Spec.Iter
namespace GC
open DirectedGraph

/-- After the paths `ps` were yielded (in this order) the path `l` has been found: it is the start alone, or it extends a path of `ps` by an
edge to a vertex other than the start to which no path yielded earlier has an edge. -/
def Found (g : DirectedGraph) (s : VertexId) (ps : List (List VertexId)) (l : List VertexId) : Prop :=
  l = [s] ∨ ∃ (i : Nat) (p : List VertexId) (u v : VertexId), ps[i]? = some p ∧ p.getLast? = some u ∧ Adj g u v ∧ v ≠ s ∧
    (∀ (j : Nat) (q : List VertexId) (w : VertexId), j < i → ps[j]? = some q → q.getLast? = some w → ¬ Adj g w v) ∧ l = p ++ [v]

/-- `ps` is an order of best-first search with the score `f`: each path had been found before it is yielded, is yielded once, and its score
is the least of all the paths found and not yet yielded; in the end everything found has been yielded. -/
structure BestFirstOrder (g : DirectedGraph) (s : VertexId) (f : List VertexId → Int) (ps : List (List VertexId)) : Prop where
  best : ∀ i p, ps[i]? = some p → Found g s (ps.take i) p ∧ p ∉ ps.take i ∧
    ∀ q, Found g s (ps.take i) q → q ∉ ps.take i → f p ≤ f q
  all : ∀ p, Found g s ps p → p ∈ ps

/-- The scores `f` and `f'` order the simple paths from `s` in the same way. -/
def SameOrder (g : DirectedGraph) (s : VertexId) (f f' : Path → Int) : Prop :=
  ∀ p q : Path, SimplePathFrom g s p.vertices → SimplePathFrom g s q.vertices → (f p ≤ f q ↔ f' p ≤ f' q)

/-- After the items `ys` were yielded, `y` waits: it is an unpruned walk that was not yielded, and it is the start alone or one edge longer
than an item of `ys`. -/
def WaitsAfter (g : DirectedGraph) (scorefn : ScoreFn) (constraints : List Constraint) (start : VertexId) (ys : List ScoredPath)
    (y : ScoredPath) : Prop :=
  Unpruned g scorefn constraints start y ∧ y ∉ ys ∧
    (y.path.vertices = [start] ∨ ∃ x ∈ ys, ∃ v, y.path.vertices = x.path.vertices ++ [v])

end GC
