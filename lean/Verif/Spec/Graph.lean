/-
Specification vocabulary for directed graphs, independent of the edge-map representation.
-/
import Verif.Model.Graph
import Mathlib.Logic.Relation
import Mathlib.Data.List.Chain
namespace GC

/-- A mathematical directed graph: a set of vertices and a set of edges. -/
structure SetGraph where
  V : VertexId → Prop
  E : Edge → Prop

namespace SetGraph

/-- The graph without vertices and edges. -/
def empty : SetGraph := ⟨fun _ => False, fun _ => False⟩

/-- Textbook meaning of a graph command. -/
def step (G : SetGraph) : GraphCommand → SetGraph
  | .AddVertex v => ⟨fun x => G.V x ∨ x = v, G.E⟩
  | .RemoveVertex v => ⟨fun x => G.V x ∧ x ≠ v, fun e => G.E e ∧ e.src ≠ v ∧ e.dst ≠ v⟩
  | .AddEdge a b => ⟨fun x => G.V x ∨ x = a ∨ x = b, fun e => G.E e ∨ e = ⟨a, b⟩⟩
  | .RemoveEdge a b => ⟨G.V, fun e => G.E e ∧ e ≠ ⟨a, b⟩⟩

/-- Textbook meaning of a sequence of commands. -/
def run (G : SetGraph) (cs : List GraphCommand) : SetGraph := cs.foldl step G

end SetGraph

/-- What a user can observe of a graph through `contains_vertex` / `contains_edge`. -/
def DirectedGraph.toSet (g : DirectedGraph) : SetGraph :=
  ⟨fun v => g.containsVertex v = true, fun e => g.containsEdge e = true⟩

/-- Same vertices and same edges. -/
def SameGraph (g h : DirectedGraph) : Prop :=
  (∀ v, g.containsVertex v = h.containsVertex v) ∧ (∀ e, g.containsEdge e = h.containsEdge e)

/-- `Evolves cs g`: `g` results from a new graph by the commands `cs`, where the hash map may at any time present its entries
in another order (Rust leaves the iteration order unspecified). -/
inductive Evolves : List GraphCommand → DirectedGraph → Prop where
  | new : Evolves [] .new
  | apply {cs g} (c : GraphCommand) : Evolves cs g → Evolves (cs ++ [c]) (c.applyTo g)
  | reorder {cs g m} : Evolves cs g → g.edgeMap.Perm m → Evolves cs ⟨m⟩

/-- A graph that can be built through the public API, in any iteration order. -/
def Built (g : DirectedGraph) : Prop := ∃ cs, Evolves cs g

/-- There is an edge from `u` to `v`. -/
def Adj (g : DirectedGraph) (u v : VertexId) : Prop := g.containsEdge ⟨u, v⟩ = true

/-- `v` can be reached from `u` along edges (zero or more). -/
def Reach (g : DirectedGraph) (u v : VertexId) : Prop := Relation.ReflTransGen (Adj g) u v

/-- A walk: a non-empty vertex list whose consecutive vertices are joined by edges. -/
def IsWalk (g : DirectedGraph) (l : List VertexId) : Prop := l ≠ [] ∧ l.IsChain (Adj g)

/-- A walk from `u` to `v`. -/
def WalkFromTo (g : DirectedGraph) (u v : VertexId) (l : List VertexId) : Prop :=
  l.IsChain (Adj g) ∧ l.head? = some u ∧ l.getLast? = some v

/-- A simple path starting at `u`: a walk without repeated vertex. -/
def SimplePathFrom (g : DirectedGraph) (u : VertexId) (l : List VertexId) : Prop :=
  l.IsChain (Adj g) ∧ l.head? = some u ∧ l.Nodup

/-- The graph has no directed cycle (a self-loop is a cycle). -/
def Acyclic (g : DirectedGraph) : Prop := ∀ v, ¬ Relation.TransGen (Adj g) v v

/-- The graph has no self-loop. -/
def LoopFree (g : DirectedGraph) : Prop := ∀ v, ¬ Adj g v v

end GC
