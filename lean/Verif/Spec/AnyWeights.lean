/- Specification of shortest walks for weights of any size. -/
import Verif.Spec.ShortestPath
namespace GC

/-- Every part of the walk that begins at its start weighs less than `i64::MAX`. -/
def BelowMax (w : Edge → Int) (l : List VertexId) : Prop := ∀ a b, l = a ++ b → walkWeight w a < 2 ^ 63 - 1

/-- `scores` is the map of the lightest walks among those whose parts all weigh less than `i64::MAX`: its keys are the ends of such walks,
each once, and each entry is such a walk from `s` to its key, carrying its weight, and no such walk to that vertex weighs less. -/
def LightestBelowMax (g : DirectedGraph) (w : Edge → Int) (s : VertexId) (scores : List (VertexId × ScoredPath)) : Prop :=
  (scores.map Prod.fst).Nodup ∧ (∀ v, v ∈ scores.map Prod.fst ↔ ∃ l, WalkFromTo g s v l ∧ BelowMax w l) ∧
  ∀ v sp, (v, sp) ∈ scores → WalkFromTo g s v sp.path.vertices ∧ sp.score = walkWeight w sp.path.vertices ∧ BelowMax w sp.path.vertices ∧
    ∀ l, WalkFromTo g s v l → BelowMax w l → sp.score ≤ walkWeight w l

/-- A closed walk of negative total weight can be reached from `s` and followed once, without the weight ever getting to `i64::MAX`. -/
def NegativeCycleBelowMax (g : DirectedGraph) (w : Edge → Int) (s : VertexId) : Prop :=
  ∃ v a c, WalkFromTo g s v (a ++ [v]) ∧ WalkFromTo g v v (v :: c) ∧ walkWeight w (v :: c) < 0 ∧ BelowMax w (a ++ v :: c)

/-- Some walk from `s` has a total weight that is no `i64`. -/
def OverflowingWalk (g : DirectedGraph) (w : Edge → Int) (s : VertexId) : Prop :=
  ∃ v l, WalkFromTo g s v l ∧ (walkWeight w l < -2 ^ 63 ∨ 2 ^ 63 ≤ walkWeight w l)

end GC
