/-
Model of core/src/algorithm/shortest_path.rs and core/src/algorithm/longest_path.rs.
-/
import Verif.Model.Search
import Verif.Model.Topo
namespace GC
namespace ShortestPath
open TopoSort

/-- `F: Fn(&Edge) -> i64`: a weight function (simplification: it does not panic itself). core/src/algorithm/shortest_path.rs 18, 26, 69, 109. -/
abbrev WeightFn := Edge → Int

/-- A closure `Fn(&Edge) -> i64` that may panic. core/src/algorithm/shortest_path.rs 18, 26. -/
abbrev PartialWeightFn := Edge → Run Int

/-- A weight function that does not panic, as a closure. Argument of core/src/algorithm/shortest_path.rs 24-27. -/
def pureFn (w : WeightFn) : PartialWeightFn := fun e => .done (w e)

/-- `HashMap<VertexId, ScoredPath>`. core/src/algorithm/shortest_path.rs 31, 71, 111. -/
abbrev Scores := HMap VertexId ScoredPath

/-- core/src/algorithm/shortest_path.rs 137-142. -/
def scoredPathOfOne (v : VertexId) (score : Int) : ScoredPath := ⟨Path.ofVertices [v], score⟩

/-- core/src/algorithm/shortest_path.rs 144-149. -/
def scoredPathOf (path : Path) (score : Int) : ScoredPath := ⟨path, score⟩

/-- std `i64::MAX`. core/src/algorithm/shortest_path.rs 156. -/
def i64Max : Int := 2 ^ 63 - 1

/-- core/src/algorithm/shortest_path.rs 152-157. -/
def currentScoreOfVertex (scores : Scores) (vid : VertexId) : Int :=
  ((HMap.get? scores vid).map ScoredPath.score).getD i64Max

/-- core/src/algorithm/shortest_path.rs 31-32, 68-69, 111-112: the map the three algorithms start from. -/
def initialScores (start : VertexId) : Scores := HMap.insert [] start (scoredPathOfOne start 0)

/-- core/src/algorithm/shortest_path.rs 38-55: the body of the inner `for_each` for the vertex `v`. -/
def dagRelax (scorefn : PartialWeightFn) (v : VertexId) (scores : Scores) (edge : Edge) : Run Scores :=
  (Run.unwrap (HMap.get? scores v)).bind fun sp =>
  (scorefn edge).bind fun weight =>
  (addI64 sp.score weight).bind fun newScore =>
  match (HMap.get? scores edge.dst).map ScoredPath.score with
  | some currentScore =>
    if newScore < currentScore then
      .done (HMap.insert scores edge.dst (scoredPathOf (sp.path.append edge.dst) newScore))
    else .done scores
  | none => .done (HMap.insert scores edge.dst (scoredPathOf (sp.path.append edge.dst) newScore))

/-- core/src/algorithm/shortest_path.rs 37-56: the body of the outer `for_each`. -/
def dagVisit (graph : DirectedGraph) (scorefn : PartialWeightFn) (scores : Scores) (v : VertexId) : Run Scores :=
  Run.forEach (dagRelax scorefn v) scores (graph.outboundEdges v)

/-- core/src/algorithm/shortest_path.rs 34-57: everything after the topological sort. -/
def dagRun (graph : DirectedGraph) (scorefn : PartialWeightFn) (start : VertexId) (topoOrder : List VertexId) : Run Scores :=
  Run.forEach (dagVisit graph scorefn) (initialScores start) (topoOrder.dropWhile (fun v => v ≠ start))

/-- core/src/algorithm/shortest_path.rs 24-58, for a closure that may panic. -/
def dagShortestPathsWith (dag : DAG) (scorefn : PartialWeightFn) (start : VertexId) : Prog Scores :=
  Prog.bind (topologicalSort dag.graph) fun order =>
  Prog.bind (Prog.lift (Run.unwrap order)) fun topoOrder =>
  Prog.lift (dagRun dag.graph scorefn start topoOrder)

/-- core/src/algorithm/shortest_path.rs 24-58, for a closure that does not panic. -/
def dagShortestPaths (dag : DAG) (scorefn : WeightFn) (start : VertexId) : Prog Scores := dagShortestPathsWith dag (pureFn scorefn) start

/-- core/src/algorithm/shortest_path.rs 11-21. -/
def dagShortestPath (dag : DAG) (scorefn : WeightFn) (start end_ : VertexId) : Prog (Option ScoredPath) :=
  Prog.bind (dagShortestPaths dag scorefn start) fun scores => Prog.ret (HMap.get? scores end_)

/-- core/src/algorithm/shortest_path.rs 73-79 and 119-124: test whether the edge gives a better score, and the improved entry. The sum is
computed twice in the code, with the same operands. -/
def improvement (scorefn : WeightFn) (scores : Scores) (edge : Edge) : Run (Option ScoredPath) :=
  match HMap.get? scores edge.src with
  | none => .done none
  | some sp =>
    (addI64 sp.score (scorefn edge)).bind fun newScore =>
      if newScore < currentScoreOfVertex scores edge.dst then
        .done (some (scoredPathOf (sp.path.append edge.dst) newScore))
      else .done none

/-- core/src/algorithm/shortest_path.rs 72-81: the body of the inner `for` loop of `bellman_ford`. -/
def bfRelax (scorefn : WeightFn) (scores : Scores) (edge : Edge) : Run Scores :=
  (improvement scorefn scores edge).bind fun r =>
    match r with
    | some sp => .done (HMap.insert scores edge.dst sp)
    | none => .done scores

/-- core/src/algorithm/shortest_path.rs 72-82: one round of the outer `for` loop of `bellman_ford`. -/
def bfRound (graph : DirectedGraph) (scorefn : WeightFn) (scores : Scores) (_round : Nat) : Run Scores :=
  Run.forEach (bfRelax scorefn) scores graph.edges

/-- core/src/algorithm/shortest_path.rs 88-97: the last loop, `true` if it leaves with `return None`. -/
def bfImprovable (scorefn : WeightFn) (scores : Scores) : List Edge → Run Bool
  | [] => .done false
  | edge :: l => (improvement scorefn scores edge).bind fun r => if r.isSome then .done true else bfImprovable scorefn scores l

/-- core/src/algorithm/shortest_path.rs 63-102. `1..n` has `n - 1` elements, none if `n = 0`. -/
def bellmanFord (graph : DirectedGraph) (scorefn : WeightFn) (start : VertexId) : Run (Option Scores) :=
  (Run.forEach (bfRound graph scorefn) (initialScores start) (List.range' 1 (graph.vertexCount - 1))).bind fun scores =>
  (bfImprovable scorefn scores graph.edges).bind fun improvable =>
  .done (if improvable then none else some scores)

/-- core/src/algorithm/shortest_path.rs 118-129: the body of the `for` loop of `spfa`. -/
def spfaRelax (scorefn : WeightFn) (s : Scores × Queue VertexId) (edge : Edge) : Run (Scores × Queue VertexId) :=
  (improvement scorefn s.1 edge).bind fun r =>
    match r with
    | some sp => .done (HMap.insert s.1 edge.dst sp, s.2.push edge.dst)
    | none => .done s

/-- core/src/algorithm/shortest_path.rs 117-130: one round of the `while let` loop of `spfa`. -/
def spfaStep (graph : DirectedGraph) (scorefn : WeightFn) (s : Scores × Queue VertexId) : Prog ((Scores × Queue VertexId) ⊕ Scores) :=
  match s.2.pop with
  | none => Prog.ret (.inr s.1)
  | some (vid, q) =>
    Prog.bind (Prog.lift (Run.forEach (spfaRelax scorefn) (s.1, q) (graph.outboundEdges vid))) fun s' => Prog.ret (.inl s')

/-- core/src/algorithm/shortest_path.rs 107-133. -/
def spfa (graph : DirectedGraph) (scorefn : WeightFn) (start : VertexId) : Prog Scores :=
  Prog.loop (spfaStep graph scorefn) (initialScores start, Queue.new.push start)

end ShortestPath

namespace LongestPath
open TopoSort ShortestPath

/-- `-1 * x` for an `i64` with overflow check. core/src/algorithm/longest_path.rs 28, 34. -/
def negI64 (x : Int) : Run Int := if -x < 2 ^ 63 then .done (-x) else .panicked

/-- core/src/algorithm/longest_path.rs 32-37. -/
def negateScores : Scores → Run Scores
  | [] => .done []
  | (k, sp) :: m => (negI64 sp.score).bind fun sc => (negateScores m).bind fun m' => .done ((k, { sp with score := sc }) :: m')

/-- core/src/algorithm/longest_path.rs 24-30. -/
def dagLongestPaths (dag : DAG) (scorefn : WeightFn) (start : VertexId) : Prog Scores :=
  Prog.bind (dagShortestPathsWith dag (fun e => negI64 (scorefn e)) start) fun scores => Prog.lift (negateScores scores)

/-- core/src/algorithm/longest_path.rs 10-20. -/
def dagLongestPath (dag : DAG) (scorefn : WeightFn) (start end_ : VertexId) : Prog (Option ScoredPath) :=
  Prog.bind (dagLongestPaths dag scorefn start) fun scores => Prog.ret (HMap.get? scores end_)

end LongestPath
end GC
