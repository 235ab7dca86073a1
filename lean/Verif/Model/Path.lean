/-
Model of core/src/path.rs.
-/
import Verif.Model.Graph
namespace GC

/-- core/src/path.rs 5-9: `Path { vertices }`. -/
structure Path where
  vertices : List VertexId
deriving DecidableEq, Repr

namespace Path

/-- core/src/path.rs 12-14. -/
def empty : Path := ⟨[]⟩

/-- core/src/path.rs 16-20. -/
def ofVertices (vs : List VertexId) : Path := ⟨vs⟩

/-- core/src/path.rs 22-24. -/
def isEmpty (p : Path) : Bool := p.vertices.isEmpty

/-- core/src/path.rs 26-28. -/
def size (p : Path) : Nat := p.vertices.length

/-- core/src/path.rs 30-32. -/
def first (p : Path) : Option VertexId := p.vertices.head?

/-- core/src/path.rs 34-36. -/
def last (p : Path) : Option VertexId := p.vertices.getLast?

/-- core/src/path.rs 38-40. -/
def containsVertex (p : Path) (v : VertexId) : Bool := p.vertices.contains v

/-- core/src/path.rs 50-54, `vertices.windows(2)` as edges. -/
def edgesOf : List VertexId → List Edge
  | a :: b :: l => ⟨a, b⟩ :: edgesOf (b :: l)
  | _ => []

/-- core/src/path.rs 50-54. -/
def toEdgeList (p : Path) : List Edge := edgesOf p.vertices

/-- core/src/path.rs 42-44. -/
def containsEdge (p : Path) (e : Edge) : Bool := (p.toEdgeList.find? (fun e' => e' = e)).isSome

/-- core/src/path.rs 57-66: the loop, with the set of vertices seen so far. -/
def containsCycleAux : List VertexId → List VertexId → Bool
  | _, [] => false
  | seen, v :: vs => if seen.contains v then true else containsCycleAux (seen ++ [v]) vs

/-- core/src/path.rs 57-66. -/
def containsCycle (p : Path) : Bool := containsCycleAux [] p.vertices

/-- core/src/path.rs 69-76. -/
def append (p : Path) (v : VertexId) : Path := ⟨p.vertices ++ [v]⟩

end Path

/-- core/src/path.rs 81-85. The `i64` score is an integer here; overflow is treated where scores are computed. -/
structure ScoredPath where
  path : Path
  score : Int
deriving DecidableEq, Repr

/-- core/src/path.rs 87-97: the order of `ScoredPath` compares scores only. -/
def ScoredPath.le (a b : ScoredPath) : Bool := decide (a.score ≤ b.score)

end GC
