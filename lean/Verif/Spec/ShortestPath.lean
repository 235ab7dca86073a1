/- Specification of weighted walks. -/
import Verif.Spec.Graph
import Verif.Model.Path
import Mathlib.Order.Defs.LinearOrder
import Mathlib.Algebra.Order.Group.Unbundled.Int
namespace GC

/-- Total weight of a walk: the sum of the weights of its edges. -/
def walkWeight (w : Edge → Int) : List VertexId → Int
  | a :: b :: l => w ⟨a, b⟩ + walkWeight w (b :: l)
  | _ => 0

/-- A closed walk of negative total weight can be reached from `s`. -/
def NegativeCycle (g : DirectedGraph) (w : Edge → Int) (s : VertexId) : Prop :=
  ∃ v c, Reach g s v ∧ WalkFromTo g v v c ∧ walkWeight w c < 0

/-- `scores` is the map of the lightest walks from `s`: its keys are the vertices reachable from `s`, each once, and each entry is a
walk from `s` to its key, carrying its weight, and no walk to that vertex weighs less. -/
def LightestWalks (g : DirectedGraph) (w : Edge → Int) (s : VertexId) (scores : List (VertexId × ScoredPath)) : Prop :=
  (scores.map Prod.fst).Nodup ∧ (∀ v, v ∈ scores.map Prod.fst ↔ Reach g s v) ∧
  ∀ v sp, (v, sp) ∈ scores → WalkFromTo g s v sp.path.vertices ∧ sp.score = walkWeight w sp.path.vertices ∧
    ∀ l, WalkFromTo g s v l → sp.score ≤ walkWeight w l

/-- `scores` is the map of the heaviest walks from `s`. -/
def HeaviestWalks (g : DirectedGraph) (w : Edge → Int) (s : VertexId) (scores : List (VertexId × ScoredPath)) : Prop :=
  (scores.map Prod.fst).Nodup ∧ (∀ v, v ∈ scores.map Prod.fst ↔ Reach g s v) ∧
  ∀ v sp, (v, sp) ∈ scores → WalkFromTo g s v sp.path.vertices ∧ sp.score = walkWeight w sp.path.vertices ∧
    ∀ l, WalkFromTo g s v l → walkWeight w l ≤ sp.score

/-- The weights are so small that no simple path can overflow an `i64`: `|w e| · |V| < i64::MAX` for every edge. -/
def SmallWeights (g : DirectedGraph) (w : Edge → Int) : Prop :=
  ∀ e, g.containsEdge e = true → |w e| * g.vertexCount < 2 ^ 63 - 1

end GC
