/-
Specification notions for cycles and Hamiltonian paths.
-/
import Verif.Model.Cycle
import Verif.Spec.Graph
import Verif.Spec.Args
import Mathlib.Data.List.Rotate
namespace GC

/-- The list `l` of distinct vertices is a simple cycle of the graph: every vertex is joined to the next one by an edge, and the last
one to the first one. The cycle has as many edges as vertices; a self-loop is a cycle with one vertex. -/
def IsCycle (g : DirectedGraph) (l : List VertexId) : Prop :=
  l ≠ [] ∧ l.Nodup ∧ (l ++ l.head?.toList).IsChain (Adj g)

/-- The list starts with its smallest vertex. -/
def SmallestFirst (l : List VertexId) : Prop := ∃ m, l.head? = some m ∧ ∀ v ∈ l, m.id ≤ v.id

/-- A root of the graph: a vertex without incoming edge. -/
def IsRoot (g : DirectedGraph) (v : VertexId) : Prop := g.containsVertex v = true ∧ ∀ u, ¬ Adj g u v

/-- The walk `l` goes through every vertex of the graph exactly once. -/
def HamiltonianPath (g : DirectedGraph) (l : List VertexId) : Prop :=
  l.IsChain (Adj g) ∧ l.Nodup ∧ ∀ v, v ∈ l ↔ g.containsVertex v = true

/-- The cycle `l` goes through every vertex of the graph. -/
def HamiltonianCycle (g : DirectedGraph) (l : List VertexId) : Prop :=
  IsCycle g l ∧ ∀ v, g.containsVertex v = true → v ∈ l

/-- The cycle `l` goes along the edge `e` (the closing edge included). -/
def CycleTraverses (l : List VertexId) (e : Edge) : Prop := Traverses ⟨l ++ l.head?.toList⟩ e

/-- Documented meaning of the constraint options of gc-cycle (without `max-score`) for the cycle `l`: its vertices, its edges including
the closing one, its length; its score is its length. -/
def ClosedMeets (a : Args.CycleArgs) (l : List VertexId) : Prop :=
  (∀ t vs, a.includeAll = some t → ArgIds t vs → ∀ v ∈ vs, v ∈ l) ∧
  (∀ t vs, a.excludeAll = some t → ArgIds t vs → ∀ v ∈ vs, v ∉ l) ∧
  (∀ t es, a.includeAllEdges = some t → ArgEdges t es → ∀ e ∈ es, CycleTraverses l e) ∧
  (∀ t es, a.excludeAllEdges = some t → ArgEdges t es → ∀ e ∈ es, ¬ CycleTraverses l e) ∧
  (∀ s n, a.minLength = some s → ArgNat s n → n ≤ l.length) ∧
  (∀ s n, a.maxLength = some s → ArgNat s n → l.length ≤ n) ∧
  (∀ s n, a.exactLength = some s → ArgNat s n → l.length = n) ∧
  (∀ s i, a.minScore = some s → ArgInt s i → i ≤ (l.length : Int)) ∧
  (∀ s i, a.exactScore = some s → ArgInt s i → (l.length : Int) = i)

/-- The edges named in the options of gc-cycle. -/
def NamesEdge (a : Args.CycleArgs) (e : Edge) : Prop :=
  (∃ t es, a.includeAllEdges = some t ∧ ArgEdges t es ∧ e ∈ es) ∨ (∃ t es, a.excludeAllEdges = some t ∧ ArgEdges t es ∧ e ∈ es)

/-- The edge from the last to the first vertex. -/
def IsClosingEdge (l : List VertexId) (e : Edge) : Prop := l.getLast? = some e.src ∧ l.head? = some e.dst

/-- Any two vertices are joined by edges when their direction is ignored. -/
def WeaklyConnected (g : DirectedGraph) : Prop :=
  ∀ u v, g.containsVertex u = true → g.containsVertex v = true → Relation.ReflTransGen (fun a b => Adj g a b ∨ Adj g b a) u v

/-- Every vertex can be reached from every vertex. -/
def StronglyConnected (g : DirectedGraph) : Prop :=
  ∀ u v, g.containsVertex u = true → g.containsVertex v = true → Reach g u v

/-- Every vertex can be reached from a vertex without incoming edge. -/
def RootReachable (g : DirectedGraph) : Prop :=
  ∀ v, g.containsVertex v = true → ∃ r, IsRoot g r ∧ Reach g r v

end GC
