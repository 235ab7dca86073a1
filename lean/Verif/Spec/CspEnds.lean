/-
When gc-csp gives an answer although no walk meets the options.
-/
import Verif.Spec.Main
import Verif.Spec.Iter
namespace GC
namespace Main
open Text Args

/-- What the options `exclude` and `ordered` of gc-csp ask of a walk. -/
def Allowed (a : CspArgs) (l : List VertexId) : Prop :=
  (∀ t vs, a.exclude = some t → ArgIds t vs → ∀ v ∈ vs, ¬ Visits ⟨l⟩ v) ∧
  (∀ t vs, a.ordered = some t → ArgIds t vs → InOrder vs ⟨l⟩)

/-- The options of gc-csp do not rule out the walk as the beginning of a longer one. -/
def StillOpen (a : CspArgs) (l : List VertexId) : Prop :=
  Allowed a l ∧ (a.noCycle = true → ¬ RepeatsVertex ⟨l⟩) ∧
  (∀ t n, a.maxLength = some t ∨ a.exactLength = some t → ArgNat t n → l.length ≤ n) ∧
  (∀ t i, a.exactScore = some t → ArgInt t i → (l.length : Int) - 1 ≤ i)

/-- A walk from `s` that `exclude` and `ordered` allow goes twice in succession round the same closed walk. -/
def RoundTwice (g : DirectedGraph) (s : VertexId) (a : CspArgs) : Prop :=
  ∃ p c, c ≠ [] ∧ WalkFrom g s (p ++ c ++ c) ∧ Allowed a (p ++ c ++ c)

/-- A step along an edge between vertices that the option `exclude` does not name. -/
def AvoidingStep (g : DirectedGraph) (a : CspArgs) (u v : VertexId) : Prop :=
  Adj g u v ∧ ∀ t vs, a.exclude = some t → ArgIds t vs → u ∉ vs ∧ v ∉ vs

end Main
end GC
