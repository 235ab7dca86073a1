/-
The code as compiled without overflow checks (`cargo build --release`; no Cargo.toml of the workspace sets a profile): additions,
subtractions and multiplications wrap around. Only the functions whose text contains such an operation, and their callers, are repeated
here; each one is the function of the same name in the other model files with the wrapping operation in place of the checked one.
-/
import Verif.Model.ShortestPath
import Verif.Model.MaxFlow
import Verif.Model.Random
namespace GC
namespace Release

/-- The `i64` that is congruent to `x` modulo 2^64. Used for core/src/algorithm/shortest_path.rs 44, 79-80, 94, 123-124 and longest_path.rs 28, 34. -/
def wrapI64 (x : Int) : Int := Int.bmod x (2 ^ 64)

/-- `i64` addition that wraps around. core/src/algorithm/shortest_path.rs 44, 79-80, 94, 123-124. -/
def addI64 (a b : Int) : Run Int := .done (wrapI64 (a + b))

/-- `u64` addition that wraps around. core/src/algorithm/max_flow.rs 76, 115. -/
def addU64 (a b : Nat) : Run Nat := .done ((a + b) % 2 ^ 64)

/-- `u64` subtraction that wraps around. core/src/algorithm/max_flow.rs 118, 146. -/
def subU64 (a b : Nat) : Run Nat := .done (if b ≤ a then a - b else 2 ^ 64 + a - b)

/-- `-1 * x` for an `i64`: only the product for `i64::MIN` wraps around, to `i64::MIN`. core/src/algorithm/longest_path.rs 28, 34. -/
def negI64 (x : Int) : Run Int := .done (if x = -2 ^ 63 then x else -x)

/-! ### core/src/search/a_star.rs -/

/-- core/src/search/a_star.rs 28 and 56: `f = g + h`. -/
def sumScore (cost heuristic : ScoreFn) : ScoreFn := fun dg path =>
  (cost dg path).bind fun a => (heuristic dg path).bind fun b => addI64 a b

/-- core/src/search/a_star.rs 15-32. -/
def shortestPath (H : ScoredHeap) (graph : DirectedGraph) (cost heuristic : ScoreFn) (start end_ : VertexId) : Prog (Option ScoredPath) :=
  Prog.bind (Prog.lift (BestFirstIter.from_ (H := H) graph (sumScore cost heuristic) start)) fun s =>
    Prog.find (AStar.endsAt end_) (BestFirstIter.next graph (sumScore cost heuristic)) s

/-- core/src/search/a_star.rs 41-64. -/
def constrainedShortestPath (H : ScoredHeap) (graph : DirectedGraph) (cost heuristic : ScoreFn) (start end_ : VertexId)
    (constraints : List Constraint) : Prog (Option ScoredPath) :=
  Prog.bind (Prog.lift (ConstrainedBestFirstIter.from_ (H := H) graph (sumScore cost heuristic) start)) fun s =>
    Prog.find (AStar.isSolution end_ constraints) (ConstrainedBestFirstIter.next graph (sumScore cost heuristic) constraints) s

/-- core/src/search/a_star.rs 67-70: `path.size() - 1` is `usize::MAX` for an empty path, on which `try_into().unwrap()` panics. -/
def oneWeightedEdge : ScoreFn := fun _ path =>
  let n : Nat := if path.size = 0 then 2 ^ 64 - 1 else path.size - 1
  if n < 2 ^ 63 then .done (n : Int) else .panicked

/-- command/src/bin/gc-short-path.rs 77-86. -/
def gcShortPath (H : ScoredHeap) (graph : DirectedGraph) (start end_ : VertexId) : Prog (Option ScoredPath) :=
  shortestPath H graph oneWeightedEdge AStar.zeroHeuristic start end_

/-- command/src/bin/gc-csp.rs 236-257. -/
def gcCsp (H : ScoredHeap) (graph : DirectedGraph) (start end_ : VertexId) (constraints : List Constraint) : Prog (Option ScoredPath) :=
  constrainedShortestPath H graph oneWeightedEdge AStar.zeroHeuristic start end_ constraints

/-! ### core/src/algorithm/shortest_path.rs -/
open TopoSort ShortestPath

/-- core/src/algorithm/shortest_path.rs 38-55. -/
def dagRelax (scorefn : PartialWeightFn) (v : VertexId) (scores : Scores) (edge : Edge) : Run Scores :=
  (Run.unwrap (HMap.get? scores v)).bind fun sp =>
  (scorefn edge).bind fun weight =>
  (addI64 sp.score weight).bind fun newScore =>
  match (HMap.get? scores edge.dst).map ScoredPath.score with
  | some currentScore =>
    if newScore < currentScore then
      .done (HMap.insert scores edge.dst (scoredPathOf (sp.path.append edge.dst) newScore))
    else .done scores
  | none => .done (HMap.insert scores edge.dst (scoredPathOf (sp.path.append edge.dst) newScore))

/-- core/src/algorithm/shortest_path.rs 37-56. -/
def dagVisit (graph : DirectedGraph) (scorefn : PartialWeightFn) (scores : Scores) (v : VertexId) : Run Scores :=
  Run.forEach (dagRelax scorefn v) scores (graph.outboundEdges v)

/-- core/src/algorithm/shortest_path.rs 34-57. -/
def dagRun (graph : DirectedGraph) (scorefn : PartialWeightFn) (start : VertexId) (topoOrder : List VertexId) : Run Scores :=
  Run.forEach (dagVisit graph scorefn) (initialScores start) (topoOrder.dropWhile (fun v => v ≠ start))

/-- core/src/algorithm/shortest_path.rs 24-58, for a closure that may panic. -/
def dagShortestPathsWith (dag : DAG) (scorefn : PartialWeightFn) (start : VertexId) : Prog Scores :=
  Prog.bind (topologicalSort dag.graph) fun order =>
  Prog.bind (Prog.lift (Run.unwrap order)) fun topoOrder =>
  Prog.lift (dagRun dag.graph scorefn start topoOrder)

/-- core/src/algorithm/shortest_path.rs 24-58. -/
def dagShortestPaths (dag : DAG) (scorefn : WeightFn) (start : VertexId) : Prog Scores := dagShortestPathsWith dag (pureFn scorefn) start

/-- core/src/algorithm/shortest_path.rs 11-21. -/
def dagShortestPath (dag : DAG) (scorefn : WeightFn) (start end_ : VertexId) : Prog (Option ScoredPath) :=
  Prog.bind (dagShortestPaths dag scorefn start) fun scores => Prog.ret (HMap.get? scores end_)

/-- core/src/algorithm/shortest_path.rs 73-79 and 119-124. -/
def improvement (scorefn : WeightFn) (scores : Scores) (edge : Edge) : Run (Option ScoredPath) :=
  match HMap.get? scores edge.src with
  | none => .done none
  | some sp =>
    (addI64 sp.score (scorefn edge)).bind fun newScore =>
      if newScore < currentScoreOfVertex scores edge.dst then
        .done (some (scoredPathOf (sp.path.append edge.dst) newScore))
      else .done none

/-- core/src/algorithm/shortest_path.rs 72-81. -/
def bfRelax (scorefn : WeightFn) (scores : Scores) (edge : Edge) : Run Scores :=
  (improvement scorefn scores edge).bind fun r =>
    match r with
    | some sp => .done (HMap.insert scores edge.dst sp)
    | none => .done scores

/-- core/src/algorithm/shortest_path.rs 72-82. -/
def bfRound (graph : DirectedGraph) (scorefn : WeightFn) (scores : Scores) (_round : Nat) : Run Scores :=
  Run.forEach (bfRelax scorefn) scores graph.edges

/-- core/src/algorithm/shortest_path.rs 88-97. -/
def bfImprovable (scorefn : WeightFn) (scores : Scores) : List Edge → Run Bool
  | [] => .done false
  | edge :: l => (improvement scorefn scores edge).bind fun r => if r.isSome then .done true else bfImprovable scorefn scores l

/-- core/src/algorithm/shortest_path.rs 63-102. -/
def bellmanFord (graph : DirectedGraph) (scorefn : WeightFn) (start : VertexId) : Run (Option Scores) :=
  (Run.forEach (bfRound graph scorefn) (initialScores start) (List.range' 1 (graph.vertexCount - 1))).bind fun scores =>
  (bfImprovable scorefn scores graph.edges).bind fun improvable =>
  .done (if improvable then none else some scores)

/-- core/src/algorithm/shortest_path.rs 118-129. -/
def spfaRelax (scorefn : WeightFn) (s : Scores × Queue VertexId) (edge : Edge) : Run (Scores × Queue VertexId) :=
  (improvement scorefn s.1 edge).bind fun r =>
    match r with
    | some sp => .done (HMap.insert s.1 edge.dst sp, s.2.push edge.dst)
    | none => .done s

/-- core/src/algorithm/shortest_path.rs 117-130. -/
def spfaStep (graph : DirectedGraph) (scorefn : WeightFn) (s : Scores × Queue VertexId) : Prog ((Scores × Queue VertexId) ⊕ Scores) :=
  match s.2.pop with
  | none => Prog.ret (.inr s.1)
  | some (vid, q) =>
    Prog.bind (Prog.lift (Run.forEach (spfaRelax scorefn) (s.1, q) (graph.outboundEdges vid))) fun s' => Prog.ret (.inl s')

/-- core/src/algorithm/shortest_path.rs 107-133. -/
def spfa (graph : DirectedGraph) (scorefn : WeightFn) (start : VertexId) : Prog Scores :=
  Prog.loop (spfaStep graph scorefn) (initialScores start, Queue.new.push start)

/-! ### core/src/algorithm/longest_path.rs -/

/-- core/src/algorithm/longest_path.rs 32-37. -/
def negateScores : Scores → Run Scores
  | [] => .done []
  | (k, sp) :: m => (negI64 sp.score).bind fun sc => (negateScores m).bind fun m' => .done ((k, { sp with score := sc }) :: m')

/-- core/src/algorithm/longest_path.rs 24-30. -/
def dagLongestPaths (dag : DAG) (scorefn : WeightFn) (start : VertexId) : Prog Scores :=
  Prog.bind (dagShortestPathsWith dag (fun e => negI64 (scorefn e)) start) fun scores => Prog.lift (negateScores scores)

/-- core/src/algorithm/longest_path.rs 10-20. -/
def dagLongestPath (dag : DAG) (scorefn : WeightFn) (start end_ : VertexId) : Prog (Option ScoredPath) :=
  Prog.bind (dagLongestPaths dag scorefn start) fun scores => Prog.ret (HMap.get? scores end_)

/-! ### core/src/algorithm/max_flow.rs -/
open MaxFlow MaxFlow.Direction

/-- core/src/algorithm/max_flow.rs 135-155. -/
def edgeResidualCapacity (edge : Edge) (direction : Direction) (currentFlow : FlowMap) : Run Nat :=
  match direction with
  | Forward => (Run.unwrap (HMap.get? currentFlow edge)).bind fun fc => subU64 fc.2 fc.1
  | Backward => (Run.unwrap (HMap.get? currentFlow edge.reverse)).bind fun fc => .done fc.1

/-- core/src/algorithm/max_flow.rs 128-129. -/
def residuals (currentFlow : FlowMap) : List (Edge × Direction) → Run (List Nat)
  | [] => .done []
  | ed :: l => (edgeResidualCapacity ed.1 ed.2 currentFlow).bind fun r => (residuals currentFlow l).bind fun rs => .done (r :: rs)

/-- core/src/algorithm/max_flow.rs 124-132. -/
def residualCapacity (path : AugmentingPath) (currentFlow : FlowMap) : Run Nat :=
  (residuals currentFlow path.edges).bind fun rs => Run.unwrap rs.min?

/-- core/src/algorithm/max_flow.rs 113-119. -/
def updateEdge (currentFlow : FlowMap) (delta : Nat) (ed : Edge × Direction) : Run FlowMap :=
  match ed.2 with
  | Forward =>
    match HMap.get? currentFlow ed.1 with
    | none => .done currentFlow
    | some fc => (addU64 fc.1 delta).bind fun f => .done (HMap.insert currentFlow ed.1 (f, fc.2))
  | Backward =>
    match HMap.get? currentFlow ed.1.reverse with
    | none => .done currentFlow
    | some fc => (subU64 fc.1 delta).bind fun f => .done (HMap.insert currentFlow ed.1.reverse (f, fc.2))

/-- core/src/algorithm/max_flow.rs 112-120. -/
def updateEdges (delta : Nat) : List (Edge × Direction) → FlowMap → Run FlowMap
  | [], m => .done m
  | ed :: l, m => (updateEdge m delta ed).bind fun m' => updateEdges delta l m'

/-- core/src/algorithm/max_flow.rs 105-121. -/
def updateFlow (currentFlow : FlowMap) (path : AugmentingPath) (delta : Nat) : Run FlowMap :=
  updateEdges delta path.edges currentFlow

/-- core/src/algorithm/max_flow.rs 211-219. -/
def checkPath (currentFlow : FlowMap) (target : VertexId) (path : AugmentingPath) (vid : VertexId) : Run (Option Nat) :=
  if vid = target then (residualCapacity path currentFlow).bind fun r => if 0 < r then .done (some r) else .done none
  else .done none

/-- core/src/algorithm/max_flow.rs 191-220. -/
def nextStep (graph : DirectedGraph) (currentFlow : FlowMap) (target : VertexId) (queue : Queue AugmentingPath) :
    Prog (Queue AugmentingPath ⊕ Option (AugmentingPath × Nat)) :=
  match queue.pop with
  | none => Prog.ret (.inr none)
  | some (path, queue) =>
    Prog.lift ((Run.unwrap path.last).bind fun q =>
      (checkPath currentFlow target path q.1).bind fun r =>
        match r with
        | some c => .done (.inr (some (path, c)))
        | none => .done (.inl (pushNeighbours graph path q.1 queue)))

/-- core/src/algorithm/max_flow.rs 83-103, 170-183, 187-226. -/
def findAugmentingPath (graph : DirectedGraph) (currentFlow : FlowMap) (start target : VertexId) :
    Prog (Option (AugmentingPath × Nat)) :=
  Prog.loop (nextStep graph currentFlow target) (Queue.new.push (.new start))

/-- core/src/algorithm/max_flow.rs 72-75. -/
def step (graph : DirectedGraph) (start end_ : VertexId) (s : FlowMap × Nat) : Prog ((FlowMap × Nat) ⊕ (Nat × FlowMap)) :=
  Prog.bind (findAugmentingPath graph s.1 start end_) fun r =>
    match r with
    | none => Prog.ret (.inr (s.2, s.1))
    | some (path, residualCap) =>
      Prog.lift ((updateFlow s.1 path residualCap).bind fun m => (addU64 s.2 residualCap).bind fun v => .done (.inl (m, v)))

/-- core/src/algorithm/max_flow.rs 57-78. -/
def maxFlow (graph : DirectedGraph) (capacity : Edge → UInt64) (start end_ : VertexId) : Prog (Nat × FlowMap) :=
  Prog.loop (step graph start end_) (initialFlow graph capacity, 0)

/-! ### command/src/bin/gc-random.rs -/

/-- command/src/bin/gc-random.rs 70-75: `vertex_count * 3` wraps around. -/
def sizes (vertexCount : Text) (edgeCount : Option Text) : Run (Nat × Nat) :=
  (Run.unwrap (Text.parseUsize vertexCount)).bind fun vc => .done (vc, (edgeCount.bind Text.parseUsize).getD (vc * 3 % 2 ^ 64))

/-- command/src/bin/gc-random.rs 68-109. -/
def gcRandom (rng : Nat → UInt64) (order : DirectedGraph → DirectedGraph) (root : Store.FPath) (force : Bool) (answer : Text)
    (vertexCount : Text) (edgeCount : Option Text) (fs : Store.FS) : Prog (Store.FS × Store.Exit) :=
  match sizes vertexCount edgeCount with
  | .done (vc, ec) => Prog.bind (Random.createsRandomDag rng vc ec) fun g => Prog.ret (Random.finish order root force answer fs g)
  | _ => Prog.ret (fs, .panic)

end Release
end GC
