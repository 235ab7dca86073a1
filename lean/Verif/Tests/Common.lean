/-
The helper functions of the unit tests in /repo.

The modules in `Verif/Tests` run the unit tests of /repo on the model, one `example` for every test, under the name of the test. They are
tests of the translation, not proofs of properties: an `example` that failed would show a difference between the model and the code the
tests of /repo were written for. The iteration order of a hash map is the order of insertion here; the tests do not depend on it.
-/
import Verif.Model.Graph
import Verif.Model.Path
deriving instance DecidableEq for Except

namespace GC.Tests

/-- The helper `edge` of the tests (core/src/directed_graph.rs 366-368 and elsewhere). -/
def edge (src dst : Nat) : Edge := ⟨⟨UInt64.ofNat src⟩, ⟨UInt64.ofNat dst⟩⟩

/-- A graph made by calls of `add_edge`, as in most tests. -/
def graphOf (es : List (Nat × Nat)) : DirectedGraph := es.foldl (fun g e => (g.addEdge (edge e.1 e.2)).2) .new

/-- The helper `path_of` of the tests (core/src/constraint/constraint.rs 522-526 and elsewhere). -/
def pathOf (ids : List Nat) : Path := ⟨ids.map fun n => ⟨UInt64.ofNat n⟩⟩

/-- The helper `score_of` of the tests (core/src/constraint/constraint.rs 528-533). -/
def scoreOf (path : Path) (score : Int) : ScoredPath := ⟨path, score⟩

end GC.Tests
