/- Specification: two builds of the same program. -/
import Verif.Spec.ShortestPath
import Verif.Model.Prog
namespace GC

/-- The second program does what the first one does, except where the first one panics: same result, or neither of them ends. -/
def SameUnlessPanic {α : Type} (checked wrapping : Prog α) : Prop :=
  (∀ a, Returns checked a → Returns wrapping a) ∧ (Diverges checked → Diverges wrapping)

/-- `y` is the `i64` that the number `x` becomes when it wraps around. -/
def WrapsTo (x y : Int) : Prop := -2 ^ 63 ≤ y ∧ y < 2 ^ 63 ∧ (2 ^ 64 : Int) ∣ y - x

/-- Every entry is a walk from `s` to its key, and its score is the weight of that walk, wrapped around. -/
def WrappedWalks (g : DirectedGraph) (w : Edge → Int) (s : VertexId) (scores : List (VertexId × ScoredPath)) : Prop :=
  (scores.map Prod.fst).Nodup ∧
  ∀ v sp, (v, sp) ∈ scores → WalkFromTo g s v sp.path.vertices ∧ WrapsTo (walkWeight w sp.path.vertices) sp.score

end GC
