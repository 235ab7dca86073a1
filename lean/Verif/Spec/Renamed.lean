/-
Graphs that differ in the names of their vertices, or in the direction of their edges.
-/
import Verif.Spec.Graph
import Verif.Spec.Constraint
namespace GC

/-- `g'` is `g` with every vertex `v` called `ρ v`. (Since ids are 64-bit numbers, every id is then the new name of one vertex id.) -/
structure Renamed (ρ : VertexId → VertexId) (g g' : DirectedGraph) : Prop where
  inj : Function.Injective ρ
  vertices : ∀ v, g'.containsVertex (ρ v) = g.containsVertex v
  edges : ∀ u v, g'.containsEdge ⟨ρ u, ρ v⟩ = g.containsEdge ⟨u, v⟩

/-- `g'` is `g` with every edge turned round. -/
structure Reversed (g g' : DirectedGraph) : Prop where
  vertices : ∀ v, g'.containsVertex v = g.containsVertex v
  edges : ∀ u v, g'.containsEdge ⟨v, u⟩ = g.containsEdge ⟨u, v⟩

/-- The command for the new names. -/
def GraphCommand.rename (ρ : VertexId → VertexId) : GraphCommand → GraphCommand
  | .AddVertex v => .AddVertex (ρ v)
  | .RemoveVertex v => .RemoveVertex (ρ v)
  | .AddEdge a b => .AddEdge (ρ a) (ρ b)
  | .RemoveEdge a b => .RemoveEdge (ρ a) (ρ b)

/-- The constraint for the new names. -/
def Constraint.rename (ρ : VertexId → VertexId) : Constraint → Constraint
  | .ContainsVertex v => .ContainsVertex (ρ v)
  | .ContainsEdge e => .ContainsEdge ⟨ρ e.src, ρ e.dst⟩
  | .OrderedVertices l => .OrderedVertices (l.map ρ)
  | .ContainsCycle => .ContainsCycle
  | .MinLength n => .MinLength n
  | .MaxLength n => .MaxLength n
  | .MinScore s => .MinScore s
  | .MaxScore s => .MaxScore s
  | .Or a b => .Or (a.rename ρ) (b.rename ρ)
  | .Xor a b => .Xor (a.rename ρ) (b.rename ρ)
  | .And a b => .And (a.rename ρ) (b.rename ρ)
  | .Not a => .Not (a.rename ρ)

/-- The command for the turned edges. -/
def GraphCommand.turn : GraphCommand → GraphCommand
  | .AddVertex v => .AddVertex v
  | .RemoveVertex v => .RemoveVertex v
  | .AddEdge a b => .AddEdge b a
  | .RemoveEdge a b => .RemoveEdge b a

end GC
