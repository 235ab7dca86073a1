/-
Model of the query commands from their arguments to what they print: gc-topo-sort, gc-short-path, gc-csp, gc-cycle and gc-desc
(command/src/bin/). The command line is taken as already split by clap. A program that panics prints nothing here; what a program
prints before it panics or while it runs is in Model/Stream.lean.
-/
import Verif.Model.Store
import Verif.Model.Search
import Verif.Model.Cycle
import Verif.Model.Topo
namespace GC
namespace Main
open Text Args Store

/-- `graph_utils::load_graph(path).expect(..)` at the beginning of the query commands (e.g. command/src/bin/gc-topo-sort.rs 25).
`order` is the iteration order of the hash map of the loaded graph. -/
def loadedGraph (nd : Char → Bool) (order : DirectedGraph → DirectedGraph) (root : FPath) (fs : FS) : Prog DirectedGraph :=
  Prog.lift ((loadGraph nd root fs).bind fun r =>
    match r with
    | .ok g => .done (order g)
    | .error _ => .panicked)

/-- std `Display` of `i64`. Used at command/src/bin/gc-short-path.rs 62-65. -/
def showInt (i : Int) : Text := if i < 0 then '-' :: showFuel 20 i.natAbs else showFuel 20 i.natAbs

/-- One vertex per line (command/src/bin/gc-short-path.rs 66-68, command/src/bin/gc-csp.rs 221-223). -/
def vertexLines (vs : List VertexId) : Text := vs.flatMap fun v => showId v ++ ['\n']

/-- command/src/bin/gc-topo-sort.rs 27-36: the text printed. -/
def topoText : Option (List VertexId) → Text
  | some vs => "Topological order: ".toList ++ (vs.flatMap fun v => showId v ++ [' ']) ++ ['\n']
  | none => "Graph is not a DAG.\n".toList

/-- command/src/bin/gc-topo-sort.rs 23-37. -/
def gcTopoSort (nd : Char → Bool) (order : DirectedGraph → DirectedGraph) (root : FPath) (fs : FS) : Prog Text :=
  Prog.bind (loadedGraph nd order root fs) fun graph =>
  Prog.bind (TopoSort.topologicalSort graph) fun r => Prog.ret (topoText r)

/-- command/src/bin/gc-short-path.rs 44-53, command/src/bin/gc-csp.rs 138-147: a required vertex argument. -/
def endpoint (arg : Text) : Run VertexId := (Run.unwrap (parseVertexId arg)).bind fun id => .done ⟨id⟩

/-- command/src/bin/gc-short-path.rs 56-74: the text printed. -/
def shortPathText (start end_ : VertexId) : Option ScoredPath → Text
  | some sp => "Shortest path from vertex ".toList ++ showId start ++ " to vertex ".toList ++ showId end_ ++ " with total cost of ".toList ++
      showInt sp.score ++ ['\n'] ++ vertexLines sp.path.vertices
  | none => "Vertex ".toList ++ showId end_ ++ " is not reachable from vertex ".toList ++ showId start ++ ".\n".toList

/-- command/src/bin/gc-short-path.rs 42-75. -/
def gcShortPath (H : ScoredHeap) (nd : Char → Bool) (order : DirectedGraph → DirectedGraph) (root : FPath) (start end_ : Text) (fs : FS) :
    Prog Text :=
  Prog.bind (Prog.lift (endpoint start)) fun s =>
  Prog.bind (Prog.lift (endpoint end_)) fun e =>
  Prog.bind (loadedGraph nd order root fs) fun graph =>
  Prog.bind (AStar.gcShortPath H graph s e) fun r => Prog.ret (shortPathText s e r)

/-- std `Debug` of `VertexId` (derived, core/src/graph.rs 5-6). -/
def debugVertex (v : VertexId) : Text := "VertexId(".toList ++ showId v ++ [')']

/-- std `Debug` of `Edge` (derived, core/src/graph.rs 10-11). -/
def debugEdge (e : Edge) : Text := "Edge(".toList ++ debugVertex e.src ++ ", ".toList ++ debugVertex e.dst ++ [')']

/-- std `Debug` of the items of a list: separated by a comma and a space. Used at command/src/bin/gc-csp.rs 246 with
core/src/constraint/constraint.rs 9. -/
def debugVertices : List VertexId → Text
  | [] => []
  | [v] => debugVertex v
  | v :: l => debugVertex v ++ ", ".toList ++ debugVertices l

/-- std `Debug` of `Constraint` (derived, core/src/constraint/constraint.rs 9-40). -/
def debugConstraint : Constraint → Text
  | .ContainsVertex v => "ContainsVertex(".toList ++ debugVertex v ++ [')']
  | .ContainsEdge e => "ContainsEdge(".toList ++ debugEdge e ++ [')']
  | .OrderedVertices vs => "OrderedVertices([".toList ++ debugVertices vs ++ "])".toList
  | .ContainsCycle => "ContainsCycle".toList
  | .MinLength n => "MinLength(".toList ++ GcCycle.showNat n ++ [')']
  | .MaxLength n => "MaxLength(".toList ++ GcCycle.showNat n ++ [')']
  | .MinScore i => "MinScore(".toList ++ showInt i ++ [')']
  | .MaxScore i => "MaxScore(".toList ++ showInt i ++ [')']
  | .Or c d => "Or(".toList ++ debugConstraint c ++ ", ".toList ++ debugConstraint d ++ [')']
  | .Xor c d => "Xor(".toList ++ debugConstraint c ++ ", ".toList ++ debugConstraint d ++ [')']
  | .And c d => "And(".toList ++ debugConstraint c ++ ", ".toList ++ debugConstraint d ++ [')']
  | .Not c => "Not(".toList ++ debugConstraint c ++ [')']

/-- command/src/bin/gc-csp.rs 244-247: the constraints are printed before the search. -/
def constraintsText (cs : List Constraint) : Text :=
  "Constraint that will be applied to search are: \n".toList ++ cs.flatMap fun c => debugConstraint c ++ ['\n']

/-- command/src/bin/gc-csp.rs 212-230: the text printed after the search. -/
def cspText (start end_ : VertexId) : Option ScoredPath → Text
  | some sp => "Constrained shortest path from vertex ".toList ++ showId start ++ " to vertex ".toList ++ showId end_ ++
      " with total cost of ".toList ++ showInt sp.score ++ ".\n".toList ++ vertexLines sp.path.vertices
  | none => "Vertex ".toList ++ showId end_ ++ " is not reachable from vertex ".toList ++ showId start ++
      " within the given constraints.\n".toList

/-- command/src/bin/gc-csp.rs 136-231. -/
def gcCsp (H : ScoredHeap) (nd : Char → Bool) (order : DirectedGraph → DirectedGraph) (root : FPath) (start end_ : Text) (a : CspArgs)
    (fs : FS) : Prog Text :=
  Prog.bind (Prog.lift (endpoint start)) fun s =>
  Prog.bind (Prog.lift (endpoint end_)) fun e =>
  Prog.bind (loadedGraph nd order root fs) fun graph =>
  Prog.bind (AStar.gcCsp H graph s e (cspConstraints a)) fun r =>
  Prog.ret (constraintsText (cspConstraints a) ++ cspText s e r)

/-- command/src/bin/gc-cycle.rs 168-273: the lines printed. -/
def gcCycle (nd : Char → Bool) (order : DirectedGraph → DirectedGraph) (root : FPath) (act : GcCycle.Actions) (a : CycleArgs) (fs : FS) :
    Prog (List Text) :=
  Prog.bind (loadedGraph nd order root fs) fun graph => GcCycle.main graph act a

/-- command/src/bin/gc-desc.rs 31-46: an id, or `-` if there is none. -/
def showExtreme : Option UInt64 → Text
  | some x => showU64 x
  | none => ['-']

/-- command/src/bin/gc-desc.rs 25-46: the text printed; `path` is the argument as given. -/
def descText (path : Text) (d : Desc) : Text :=
  "Path: ".toList ++ path ++ "\nVertices: ".toList ++ GcCycle.showNat d.vertices ++ "\nEdges: ".toList ++ GcCycle.showNat d.edges ++
    "\nMin vertex id: ".toList ++ showExtreme d.minId ++ "\nMax vertex id: ".toList ++ showExtreme d.maxId ++ ['\n']

end Main
end GC
