/-
Model of core/src/algorithm/max_flow.rs.
-/
import Verif.Model.Iter
namespace GC

/-- `u64` addition, with the overflow panic of a debug build. Values of type `u64` are natural numbers below 2^64 in this file.
core/src/algorithm/max_flow.rs 76, 115. -/
def addU64 (a b : Nat) : Run Nat := if a + b < 2 ^ 64 then .done (a + b) else .panicked

/-- `u64` subtraction, with the overflow panic of a debug build. core/src/algorithm/max_flow.rs 118, 146. -/
def subU64 (a b : Nat) : Run Nat := if b ≤ a then .done (a - b) else .panicked

namespace MaxFlow

/-- core/src/algorithm/max_flow.rs 13-16. -/
inductive Direction where
  | Forward
  | Backward
deriving DecidableEq, Repr
open Direction

/-- core/src/algorithm/max_flow.rs 65: flow and capacity of every edge. -/
abbrev FlowMap : Type := HMap Edge (Nat × Nat)

/-- core/src/algorithm/max_flow.rs 21-23. -/
structure AugmentingPath where
  path : List (VertexId × Direction)
deriving DecidableEq, Repr

namespace AugmentingPath

/-- core/src/algorithm/max_flow.rs 26-30. -/
def new (start : VertexId) : AugmentingPath := ⟨[(start, Forward)]⟩

/-- core/src/algorithm/max_flow.rs 32-38. -/
def edges (p : AugmentingPath) : List (Edge × Direction) :=
  (p.path.zip (p.path.drop 1)).map fun q => (⟨q.1.1, q.2.1⟩, q.2.2)

/-- core/src/algorithm/max_flow.rs 40-44. -/
def append (p : AugmentingPath) (vid : VertexId) (direction : Direction) : AugmentingPath := ⟨p.path ++ [(vid, direction)]⟩

/-- core/src/algorithm/max_flow.rs 46-48. -/
def containsVertex (p : AugmentingPath) (vid : VertexId) : Bool := (p.path.find? fun q => vid = q.1).isSome

/-- core/src/algorithm/max_flow.rs 50-52. -/
def last (p : AugmentingPath) : Option (VertexId × Direction) := p.path.getLast?

end AugmentingPath

/-- core/src/algorithm/max_flow.rs 135-155. -/
def edgeResidualCapacity (edge : Edge) (direction : Direction) (currentFlow : FlowMap) : Run Nat :=
  match direction with
  | Forward => (Run.unwrap (HMap.get? currentFlow edge)).bind fun fc => subU64 fc.2 fc.1
  | Backward => (Run.unwrap (HMap.get? currentFlow edge.reverse)).bind fun fc => .done fc.1

/-- core/src/algorithm/max_flow.rs 128-129: the residual capacities of the edges of a path. -/
def residuals (currentFlow : FlowMap) : List (Edge × Direction) → Run (List Nat)
  | [] => .done []
  | ed :: l => (edgeResidualCapacity ed.1 ed.2 currentFlow).bind fun r => (residuals currentFlow l).bind fun rs => .done (r :: rs)

/-- core/src/algorithm/max_flow.rs 124-132. -/
def residualCapacity (path : AugmentingPath) (currentFlow : FlowMap) : Run Nat :=
  (residuals currentFlow path.edges).bind fun rs => Run.unwrap rs.min?

/-- core/src/algorithm/max_flow.rs 113-119: one round of the `for` loop; `entry(..).and_modify(..)` does nothing for an absent key. -/
def updateEdge (currentFlow : FlowMap) (delta : Nat) (ed : Edge × Direction) : Run FlowMap :=
  match ed.2 with
  | Forward =>
    match HMap.get? currentFlow ed.1 with
    | none => .done currentFlow
    | some fc => (addU64 fc.1 delta).bind fun f => .done (HMap.insert currentFlow ed.1 (f, fc.2))
  | Backward =>
    match HMap.get? currentFlow ed.1.reverse with
    | none => .done currentFlow
    | some fc => (subU64 fc.1 delta).bind fun f => .done (HMap.insert currentFlow ed.1.reverse (f, fc.2))

/-- core/src/algorithm/max_flow.rs 112-120: the `for` loop. -/
def updateEdges (delta : Nat) : List (Edge × Direction) → FlowMap → Run FlowMap
  | [], m => .done m
  | ed :: l, m => (updateEdge m delta ed).bind fun m' => updateEdges delta l m'

/-- core/src/algorithm/max_flow.rs 105-121. -/
def updateFlow (currentFlow : FlowMap) (path : AugmentingPath) (delta : Nat) : Run FlowMap :=
  updateEdges delta path.edges currentFlow

/-- core/src/algorithm/max_flow.rs 196-205: the out-neighbours with direction `Forward`, then those coming from `inbound_edges` with
direction `Backward`. The code takes the second component of an inbound edge, which is `vid` itself. -/
def neighbours (graph : DirectedGraph) (vid : VertexId) : List (VertexId × Direction) :=
  (graph.outboundEdges vid).map (fun e => (e.dst, Forward)) ++ (graph.inboundEdges vid).map (fun e => (e.dst, Backward))

/-- core/src/algorithm/max_flow.rs 206-209: the paths pushed for `path` with last vertex `vid`. -/
def pushNeighbours (graph : DirectedGraph) (path : AugmentingPath) (vid : VertexId) (queue : Queue AugmentingPath) : Queue AugmentingPath :=
  ((neighbours graph vid).filter fun q => !path.containsVertex q.1).foldl (fun qu q => qu.push (path.append q.1 q.2)) queue

/-- core/src/algorithm/max_flow.rs 211-219: the path is returned if it ends in the target and has a positive residual capacity. -/
def checkPath (currentFlow : FlowMap) (target : VertexId) (path : AugmentingPath) (vid : VertexId) : Run (Option Nat) :=
  if vid = target then (residualCapacity path currentFlow).bind fun r => if 0 < r then .done (some r) else .done none
  else .done none

/-- core/src/algorithm/max_flow.rs 191-220: one round of the `while let` of `AugmentingPathIter::next`.
The code pushes the neighbours before it looks at the path; here they are pushed only if the path is not returned, because the only caller
takes the first item and drops the iterator with its queue. -/
def nextStep (graph : DirectedGraph) (currentFlow : FlowMap) (target : VertexId) (queue : Queue AugmentingPath) :
    Prog (Queue AugmentingPath ⊕ Option (AugmentingPath × Nat)) :=
  match queue.pop with
  | none => Prog.ret (.inr none)
  | some (path, queue) =>
    Prog.lift ((Run.unwrap path.last).bind fun q =>
      (checkPath currentFlow target path q.1).bind fun r =>
        match r with
        | some c => .done (.inr (some (path, c)))
        | none => .done (.inl (pushNeighbours graph path q.1 queue)))

/-- core/src/algorithm/max_flow.rs 83-103, 170-183, 187-226: the first item of a new `AugmentingPathIter`. -/
def findAugmentingPath (graph : DirectedGraph) (currentFlow : FlowMap) (start target : VertexId) :
    Prog (Option (AugmentingPath × Nat)) :=
  Prog.loop (nextStep graph currentFlow target) (Queue.new.push (.new start))

/-- core/src/algorithm/max_flow.rs 65-68. -/
def initialFlow (graph : DirectedGraph) (capacity : Edge → UInt64) : FlowMap :=
  graph.edges.foldl (fun m e => HMap.insert m e (0, (capacity e).toNat)) []

/-- core/src/algorithm/max_flow.rs 72-75: one round of the main loop; the state is the flow map and the value. -/
def step (graph : DirectedGraph) (start end_ : VertexId) (s : FlowMap × Nat) : Prog ((FlowMap × Nat) ⊕ (Nat × FlowMap)) :=
  Prog.bind (findAugmentingPath graph s.1 start end_) fun r =>
    match r with
    | none => Prog.ret (.inr (s.2, s.1))
    | some (path, residualCap) =>
      Prog.lift ((updateFlow s.1 path residualCap).bind fun m => (addU64 s.2 residualCap).bind fun v => .done (.inl (m, v)))

/-- core/src/algorithm/max_flow.rs 57-78. -/
def maxFlow (graph : DirectedGraph) (capacity : Edge → UInt64) (start end_ : VertexId) : Prog (Nat × FlowMap) :=
  Prog.loop (step graph start end_) (initialFlow graph capacity, 0)

end MaxFlow
end GC
