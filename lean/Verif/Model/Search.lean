/-
Model of core/src/search/a_star.rs and of the searches of command/src/bin/gc-short-path.rs and gc-csp.rs.
-/
import Verif.Model.Iter
namespace GC

/-- Addition of `i64` with overflow check (a debug build panics; a release build wraps, see `Model/Release.lean`). core/src/search/a_star.rs 28,
56, and core/src/algorithm/shortest_path.rs 44, 79-80, 94, 123-124. -/
def addI64 (a b : Int) : Run Int := if -2 ^ 63 ≤ a + b ∧ a + b < 2 ^ 63 then .done (a + b) else .panicked

namespace AStar

/-- core/src/search/a_star.rs 28 and 56: `f = g + h`. -/
def sumScore (cost heuristic : ScoreFn) : ScoreFn := fun dg path =>
  (cost dg path).bind fun a => (heuristic dg path).bind fun b => addI64 a b

/-- core/src/search/a_star.rs 31. -/
def endsAt (end_ : VertexId) (sp : ScoredPath) : Bool := decide (sp.path.last = some end_)

/-- core/src/search/a_star.rs 15-32. -/
def shortestPath (H : ScoredHeap) (graph : DirectedGraph) (cost heuristic : ScoreFn) (start end_ : VertexId) : Prog (Option ScoredPath) :=
  Prog.bind (Prog.lift (BestFirstIter.from_ (H := H) graph (sumScore cost heuristic) start)) fun s =>
    Prog.find (endsAt end_) (BestFirstIter.next graph (sumScore cost heuristic)) s

/-- core/src/search/a_star.rs 60-63. -/
def isSolution (end_ : VertexId) (constraints : List Constraint) (sp : ScoredPath) : Bool :=
  endsAt end_ sp && constraints.all fun c => c.checkComplete sp

/-- core/src/search/a_star.rs 41-64. -/
def constrainedShortestPath (H : ScoredHeap) (graph : DirectedGraph) (cost heuristic : ScoreFn) (start end_ : VertexId)
    (constraints : List Constraint) : Prog (Option ScoredPath) :=
  Prog.bind (Prog.lift (ConstrainedBestFirstIter.from_ (H := H) graph (sumScore cost heuristic) start)) fun s =>
    Prog.find (isSolution end_ constraints) (ConstrainedBestFirstIter.next graph (sumScore cost heuristic) constraints) s

/-- core/src/search/a_star.rs 67-70: `path.size() - 1` panics on an empty path, `try_into` on a size that is not an `i64`. -/
def oneWeightedEdge : ScoreFn := fun _ path =>
  if path.size = 0 then .panicked else if path.size - 1 < 2 ^ 63 then .done ((path.size - 1 : Nat) : Int) else .panicked

/-- core/src/search/a_star.rs 74-76. -/
def zeroHeuristic : ScoreFn := fun _ _ => .done 0

/-- command/src/bin/gc-short-path.rs 77-86. -/
def gcShortPath (H : ScoredHeap) (graph : DirectedGraph) (start end_ : VertexId) : Prog (Option ScoredPath) :=
  shortestPath H graph oneWeightedEdge zeroHeuristic start end_

/-- command/src/bin/gc-csp.rs 236-257: the search made by gc-csp. -/
def gcCsp (H : ScoredHeap) (graph : DirectedGraph) (start end_ : VertexId) (constraints : List Constraint) : Prog (Option ScoredPath) :=
  constrainedShortestPath H graph oneWeightedEdge zeroHeuristic start end_ constraints

end AStar
end GC
