/-
Model of core/src/graph.rs, core/src/directed_graph.rs, core/src/graph_command.rs.
-/
namespace GC

/-- core/src/graph.rs 4-6: `VertexId(u64)`. -/
structure VertexId where
  id : UInt64
deriving DecidableEq, Repr

instance (n : Nat) : OfNat VertexId n := ⟨⟨UInt64.ofNat n⟩⟩

/-- core/src/graph.rs 5: derived `Ord` of `VertexId` (order of the `u64`). -/
instance : LT VertexId := ⟨fun a b => a.id < b.id⟩
/-- core/src/graph.rs 5: derived `Ord` of `VertexId` (order of the `u64`). -/
instance : LE VertexId := ⟨fun a b => a.id ≤ b.id⟩
instance (a b : VertexId) : Decidable (a < b) := inferInstanceAs (Decidable (a.id < b.id))
instance (a b : VertexId) : Decidable (a ≤ b) := inferInstanceAs (Decidable (a.id ≤ b.id))

/-- core/src/graph.rs 8-11: `Edge(VertexId, VertexId)`, from `src` to `dst`. -/
structure Edge where
  src : VertexId
  dst : VertexId
deriving DecidableEq, Repr

/-- core/src/graph.rs 14-17: `Edge::reverse`. -/
def Edge.reverse (e : Edge) : Edge := ⟨e.dst, e.src⟩

/-! ### Finite maps

`std::collections::HashMap` is modelled by an association list with distinct keys. The order of the list is the
iteration order; Rust leaves it unspecified, see `Built` in `Verif/Spec/Graph.lean`. -/

/-- std `HashMap<K, V>` (simplification: association list). Used at core/src/directed_graph.rs 12. -/
abbrev HMap (K V : Type) : Type := List (K × V)

namespace HMap
variable {K V : Type} [DecidableEq K]

/-- std `HashMap::get`. Used at core/src/directed_graph.rs 111. -/
def get? : HMap K V → K → Option V
  | [], _ => none
  | (k', v) :: m, k => if k' = k then some v else get? m k

/-- std `HashMap::contains_key`. Used at core/src/directed_graph.rs 44. -/
def containsKey (m : HMap K V) (k : K) : Bool := (get? m k).isSome

/-- std `HashMap::keys`. Used at core/src/directed_graph.rs 27, 48. -/
def keys (m : HMap K V) : List K := m.map Prod.fst

/-- std `HashMap::get_mut(k).map(|v| *v = f(v))`: update in place, nothing if the key is absent. Used at core/src/directed_graph.rs 128, 130,
140-146. -/
def modify (m : HMap K V) (k : K) (f : V → V) : HMap K V :=
  m.map (fun p => if p.1 = k then (p.1, f p.2) else p)

/-- std `HashMap::insert`: replace the value of an existing key or add a new entry. Used at core/src/directed_graph.rs 103-106,
core/src/algorithm/shortest_path.rs 32, 49, 53. -/
def insert : HMap K V → K → V → HMap K V
  | [], k, v => [(k, v)]
  | (k', v') :: m, k, v => if k' = k then (k', v) :: m else (k', v') :: insert m k v

/-- std `HashMap::remove`. Used at core/src/directed_graph.rs 116. -/
def remove (m : HMap K V) (k : K) : HMap K V := m.filter (fun p => p.1 ≠ k)

end HMap

/-- core/src/directed_graph.rs 10-13: `DirectedGraph { edge_map }`; an edge is stored under both endpoints. -/
structure DirectedGraph where
  edgeMap : HMap VertexId (List Edge)
deriving DecidableEq, Repr

namespace DirectedGraph

/-- core/src/directed_graph.rs 16-20. -/
def new : DirectedGraph := ⟨[]⟩

/-- core/src/directed_graph.rs 30-32. -/
def vertexCount (g : DirectedGraph) : Nat := g.edgeMap.length

/-- core/src/directed_graph.rs 22-24. -/
def isEmpty (g : DirectedGraph) : Bool := g.vertexCount == 0

/-- core/src/directed_graph.rs 47-49. -/
def vertices (g : DirectedGraph) : List VertexId := HMap.keys g.edgeMap

/-- core/src/directed_graph.rs 26-28. -/
def headOption (g : DirectedGraph) : Option VertexId := g.vertices.head?

/-- core/src/directed_graph.rs 34-41. -/
def edgeCount (g : DirectedGraph) : Nat :=
  (g.edgeMap.foldl (fun total p => total + p.2.length) 0) / 2

/-- core/src/directed_graph.rs 43-45. -/
def containsVertex (g : DirectedGraph) (v : VertexId) : Bool := HMap.containsKey g.edgeMap v

/-- core/src/directed_graph.rs 51-64. The `unwrap` is guarded by `contains_vertex`. -/
def containsEdge (g : DirectedGraph) (e : Edge) : Bool :=
  if g.containsVertex e.src && g.containsVertex e.dst then
    match HMap.get? g.edgeMap e.src with
    | some es => es.contains e
    | none => false
  else false

/-- core/src/directed_graph.rs 66-75. -/
def edges (g : DirectedGraph) : List Edge :=
  g.edgeMap.flatMap (fun p => p.2.filter (fun e => p.1 = e.src))

/-- core/src/directed_graph.rs 77-83. -/
def outboundEdges (g : DirectedGraph) (v : VertexId) : List Edge :=
  ((HMap.get? g.edgeMap v).getD []).filter (fun e => e.src = v)

/-- core/src/directed_graph.rs 85-91. -/
def inboundEdges (g : DirectedGraph) (v : VertexId) : List Edge :=
  ((HMap.get? g.edgeMap v).getD []).filter (fun e => e.dst = v)

/-- core/src/directed_graph.rs 93-95. -/
def degreeOut (g : DirectedGraph) (v : VertexId) : Nat := (g.outboundEdges v).length

/-- core/src/directed_graph.rs 97-99. -/
def degreeIn (g : DirectedGraph) (v : VertexId) : Nat := (g.inboundEdges v).length

/-- core/src/directed_graph.rs 101-108: returns (already present?, new graph). -/
def addVertex (g : DirectedGraph) (v : VertexId) : Bool × DirectedGraph :=
  if g.containsVertex v then (true, g) else (false, ⟨HMap.insert g.edgeMap v []⟩)

/-- core/src/directed_graph.rs 138-147: `retain` under both endpoints, always `true`. -/
def removeEdge (g : DirectedGraph) (e : Edge) : Bool × DirectedGraph :=
  let m := HMap.modify g.edgeMap e.src (fun es => es.filter (fun e' => e' ≠ e))
  let m := HMap.modify m e.dst (fun es => es.filter (fun e' => e' ≠ e))
  (true, ⟨m⟩)

/-- core/src/directed_graph.rs 110-121. -/
def removeVertex (g : DirectedGraph) (v : VertexId) : Bool × DirectedGraph :=
  let (found, es) := match HMap.get? g.edgeMap v with
    | none => (false, [])
    | some es => (true, es)
  let g1 : DirectedGraph := ⟨HMap.remove g.edgeMap v⟩
  (found, es.foldl (fun g e => (g.removeEdge e).2) g1)

/-- core/src/directed_graph.rs 123-136. The two `unwrap`s follow the `add_vertex` of the same key
(see `addEdge_unwraps_succeed` in `Verif/Proofs/Graph.lean`). -/
def addEdge (g : DirectedGraph) (e : Edge) : Bool × DirectedGraph :=
  if !g.containsEdge e then
    let g := (g.addVertex e.src).2
    let g := (g.addVertex e.dst).2
    let m := HMap.modify g.edgeMap e.src (fun es => es ++ [e])
    let m := if e.src ≠ e.dst then HMap.modify m e.dst (fun es => es ++ [e]) else m
    (true, ⟨m⟩)
  else (false, g)

end DirectedGraph

/-- core/src/graph_command.rs 5-11. -/
inductive GraphCommand where
  | AddVertex (v : VertexId)
  | RemoveVertex (v : VertexId)
  | AddEdge (v1 v2 : VertexId)
  | RemoveEdge (v1 v2 : VertexId)
deriving DecidableEq, Repr

namespace GraphCommand

/-- core/src/graph_command.rs 14-22. -/
def revert : GraphCommand → GraphCommand
  | AddVertex v => RemoveVertex v
  | RemoveVertex v => AddVertex v
  | AddEdge v1 v2 => RemoveEdge v1 v2
  | RemoveEdge v1 v2 => AddEdge v1 v2

/-- core/src/graph_command.rs 30-46. -/
def applyTo (c : GraphCommand) (g : DirectedGraph) : DirectedGraph :=
  match c with
  | AddVertex v => (g.addVertex v).2
  | RemoveVertex v => (g.removeVertex v).2
  | AddEdge v1 v2 => (g.addEdge ⟨v1, v2⟩).2
  | RemoveEdge v1 v2 => (g.removeEdge ⟨v1, v2⟩).2

/-- core/src/graph_command.rs 24-28. -/
def applyCommands (cs : List GraphCommand) (g : DirectedGraph) : DirectedGraph :=
  cs.foldl (fun g c => c.applyTo g) g

/-- core/src/graph_command.rs 48-58. -/
def asCommands (g : DirectedGraph) : List GraphCommand :=
  let res := g.vertices.foldl (fun res v => res ++ [AddVertex v]) []
  g.edges.foldl (fun res e => res ++ [AddEdge e.src e.dst]) res

end GraphCommand
end GC
