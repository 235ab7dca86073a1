/-
What the query commands are documented to print.
-/
import Verif.Model.Main
import Verif.Spec.Store
import Verif.Spec.Args
import Verif.Spec.Topo
namespace GC
namespace Main
open Text Store

/-- Decimal notation of a number, without superfluous zeros. -/
def Decimal (t : Text) (n : Nat) : Prop := Numeral t n ∧ (t.head? = some '0' → t = ['0'])

/-- The ids of the vertices in decimal notation, each followed by `sep`. -/
inductive PrintedIds (sep : Char) : List VertexId → Text → Prop where
  | nil : PrintedIds sep [] []
  | cons {v vs t rest} : Decimal t v.id.toNat → PrintedIds sep vs rest → PrintedIds sep (v :: vs) (t ++ sep :: rest)

/-- Report of gc-short-path: a path with the smallest number of edges, this number being its cost; or that there is none. -/
inductive ShortPathReport (g : DirectedGraph) (s e : VertexId) : Text → Prop where
  | path {l a b k ids} : WalkFromTo g s e l → (∀ l', WalkFromTo g s e l' → l.length ≤ l'.length) →
      Decimal a s.id.toNat → Decimal b e.id.toNat → Decimal k (l.length - 1) → PrintedIds '\n' l ids →
      ShortPathReport g s e ("Shortest path from vertex ".toList ++ a ++ " to vertex ".toList ++ b ++ " with total cost of ".toList ++
        k ++ ['\n'] ++ ids)
  | unreachable {a b} : ¬ Reach g s e → Decimal a s.id.toNat → Decimal b e.id.toNat →
      ShortPathReport g s e ("Vertex ".toList ++ b ++ " is not reachable from vertex ".toList ++ a ++ ".\n".toList)

/-- What gc-topo-sort prints: a topological order; or, if the only cycle is a self-loop at a vertex without other outgoing edge, an order of
the other vertices; or that the graph is no DAG. -/
inductive TopoReport (g : DirectedGraph) : Text → Prop where
  | order {l ids} : Acyclic g → TopologicalOrder g l → PrintedIds ' ' l ids → TopoReport g ("Topological order: ".toList ++ ids ++ ['\n'])
  | loop {u l ids} : OnlyDeadEndLoop g u → l.Nodup → (∀ v, v ∈ l ↔ g.containsVertex v = true ∧ v ≠ u) →
      (∀ x y, Adj g x y → y ≠ u → Before l x y) → PrintedIds ' ' l ids → TopoReport g ("Topological order: ".toList ++ ids ++ ['\n'])
  | cyclic : ¬ Acyclic g → (∀ u, ¬ OnlyDeadEndLoop g u) → TopoReport g "Graph is not a DAG.\n".toList

/-- The walk `l` (with less than 2^63 vertices) from `s` to `e` meets the options; its score is its number of edges. -/
def CspSolution (g : DirectedGraph) (s e : VertexId) (a : Args.CspArgs) (l : List VertexId) : Prop :=
  WalkFromTo g s e l ∧ l.length < 2 ^ 63 ∧ CspMeets a ⟨⟨l⟩, (l.length : Int) - 1⟩

/-- Report of gc-csp: a shortest walk that meets the options, or that there is none. -/
inductive CspReport (g : DirectedGraph) (s e : VertexId) (a : Args.CspArgs) : Text → Prop where
  | path {l x y k ids} : WalkFromTo g s e l → CspMeets a ⟨⟨l⟩, (l.length : Int) - 1⟩ → (∀ l', CspSolution g s e a l' → l.length ≤ l'.length) →
      Decimal x s.id.toNat → Decimal y e.id.toNat → Decimal k (l.length - 1) → PrintedIds '\n' l ids →
      CspReport g s e a ("Constrained shortest path from vertex ".toList ++ x ++ " to vertex ".toList ++ y ++
        " with total cost of ".toList ++ k ++ ".\n".toList ++ ids)
  | unreachable {x y} : (∀ l, ¬ CspSolution g s e a l) → Decimal x s.id.toNat → Decimal y e.id.toNat →
      CspReport g s e a ("Vertex ".toList ++ y ++ " is not reachable from vertex ".toList ++ x ++
        " within the given constraints.\n".toList)

/-- The walk `l` (with less than 2^63 vertices) from `s` to `e` is what the options select in fact: as documented, but for `max-score`,
which is one more minimum. -/
def CspSelects (g : DirectedGraph) (s e : VertexId) (a : Args.CspArgs) (l : List VertexId) : Prop :=
  WalkFromTo g s e l ∧ l.length < 2 ^ 63 ∧ CspAccepts a ⟨⟨l⟩, (l.length : Int) - 1⟩

/-- What gc-csp reports in fact: a shortest walk that the options select, or that there is none. -/
inductive CspAnswer (g : DirectedGraph) (s e : VertexId) (a : Args.CspArgs) : Text → Prop where
  | path {l x y k ids} : WalkFromTo g s e l → CspAccepts a ⟨⟨l⟩, (l.length : Int) - 1⟩ → (∀ l', CspSelects g s e a l' → l.length ≤ l'.length) →
      Decimal x s.id.toNat → Decimal y e.id.toNat → Decimal k (l.length - 1) → PrintedIds '\n' l ids →
      CspAnswer g s e a ("Constrained shortest path from vertex ".toList ++ x ++ " to vertex ".toList ++ y ++
        " with total cost of ".toList ++ k ++ ".\n".toList ++ ids)
  | unreachable {x y} : (∀ l, ¬ CspSelects g s e a l) → Decimal x s.id.toNat → Decimal y e.id.toNat →
      CspAnswer g s e a ("Vertex ".toList ++ y ++ " is not reachable from vertex ".toList ++ x ++
        " within the given constraints.\n".toList)

/-- The numbers of a constraint are a `usize` or an `i64`. -/
def InRange : Constraint → Prop
  | .MinLength n => n < 2 ^ 64
  | .MaxLength n => n < 2 ^ 64
  | .MinScore i => i.natAbs ≤ 2 ^ 63
  | .MaxScore i => i.natAbs ≤ 2 ^ 63
  | .Or c d => InRange c ∧ InRange d
  | .Xor c d => InRange c ∧ InRange d
  | .And c d => InRange c ∧ InRange d
  | .Not c => InRange c
  | _ => True

end Main
end GC
