/-
Model of core/src/algorithm/topo_sort.rs and of command/src/bin/gc-topo-sort.rs.
-/
import Verif.Model.Prog
import Verif.Model.Graph
namespace GC

/-- std `HashSet::insert` for a set given as the list of its elements. Used at core/src/algorithm/topo_sort.rs 39-60. -/
def HSet.insert {T : Type} [DecidableEq T] (s : List T) (x : T) : List T := if x ∈ s then s else s ++ [x]

namespace TopoSort

/-- core/src/algorithm/topo_sort.rs 71-73. -/
def isStartVertex (graph : DirectedGraph) (vid : VertexId) : Bool := (graph.inboundEdges vid).length == 0

/-- core/src/algorithm/topo_sort.rs 63-68. -/
def findStartVertices (graph : DirectedGraph) : List VertexId := graph.vertices.filter (isStartVertex graph)

/-- core/src/algorithm/topo_sort.rs 36-39: the local variables of `topological_sort`. -/
structure State where
  res : List VertexId
  startVertices : List VertexId
  removedEdges : List Edge

/-- core/src/algorithm/topo_sort.rs 45-52: the body of the `for` loop. -/
def removeChild (graph : DirectedGraph) (s : State) (edge : Edge) : State :=
  let removed := HSet.insert s.removedEdges edge
  if (graph.inboundEdges edge.dst).all (fun e => removed.contains e) then
    { s with removedEdges := removed, startVertices := s.startVertices ++ [edge.dst] }
  else { s with removedEdges := removed }

/-- core/src/algorithm/topo_sort.rs 42-44: the edges the `for` loop runs over. -/
def children (graph : DirectedGraph) (s : State) (start : VertexId) : List Edge :=
  (graph.outboundEdges start).filter (fun x => !s.removedEdges.contains x)

/-- core/src/algorithm/topo_sort.rs 41-53: one round of the `while let` loop. -/
def step (graph : DirectedGraph) (s : State) : Prog (State ⊕ State) :=
  match s.startVertices with
  | [] => Prog.ret (.inr s)
  | start :: rest =>
    let s1 : State := { s with res := s.res ++ [start], startVertices := rest }
    Prog.ret (.inl ((children graph s1 start).foldl (removeChild graph) s1))

/-- core/src/algorithm/topo_sort.rs 35-60. -/
def topologicalSort (graph : DirectedGraph) : Prog (Option (List VertexId)) :=
  Prog.bind (Prog.loop (step graph) ⟨[], findStartVertices graph, []⟩) fun s =>
    if s.removedEdges.length ≠ graph.edgeCount then Prog.ret none else Prog.ret (some s.res)

/-- core/src/algorithm/topo_sort.rs 20-22. -/
def isDag (graph : DirectedGraph) : Prog Bool := Prog.bind (topologicalSort graph) fun r => Prog.ret r.isSome

/-- core/src/algorithm/topo_sort.rs 9-17: `DAG` holds a graph; its field is private, so a value exists only if `try_dag` made it. -/
structure DAG where
  graph : DirectedGraph

/-- core/src/algorithm/topo_sort.rs 25-31. -/
def tryDag (graph : DirectedGraph) : Prog (Option DAG) :=
  Prog.bind (isDag graph) fun b => Prog.ret (if b then some ⟨graph⟩ else none)

end TopoSort
end GC
