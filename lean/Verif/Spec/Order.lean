/-
The order in which the edges of a graph were inserted, as a function of the command history alone.
-/
import Verif.Spec.History
namespace GC

/-- The edges present after one more command, the oldest insertion first. An edge that is present keeps its place; an edge that is removed and
added again comes last. -/
def insertionStep (l : List Edge) : GraphCommand → List Edge
  | .AddVertex _ => l
  | .AddEdge a b => if ⟨a, b⟩ ∈ l then l else l ++ [⟨a, b⟩]
  | .RemoveEdge a b => l.filter fun e => e ≠ ⟨a, b⟩
  | .RemoveVertex v => l.filter fun e => e.src ≠ v ∧ e.dst ≠ v

/-- The edges present after a history, the oldest insertion first. -/
def insertionOrder (cs : List GraphCommand) : List Edge := cs.foldl insertionStep []

/-- The edge leaves or enters the vertex. -/
def Edge.Touches (e : Edge) (v : VertexId) : Prop := e.src = v ∨ e.dst = v

instance (e : Edge) (v : VertexId) : Decidable (e.Touches v) := inferInstanceAs (Decidable (_ ∨ _))

/-- Two sessions with the same commands, except for the iteration orders in which graphs are saved and for additional runs of gc-build. -/
inductive SameUpToBuilds : List Store.Cmd → List Store.Cmd → Prop where
  | nil : SameUpToBuilds [] []
  | same {xs ys} (cmd : Store.Cmd) : SameUpToBuilds xs ys → SameUpToBuilds (cmd :: xs) (cmd :: ys)
  | random {xs ys} (g : DirectedGraph) (order order' : DirectedGraph → DirectedGraph) (force : Bool) (answer : Text) :
      SameUpToBuilds xs ys → SameUpToBuilds (.random g order force answer :: xs) (.random g order' force answer :: ys)
  | build_left {xs ys} (order : DirectedGraph → DirectedGraph) : SameUpToBuilds xs ys → SameUpToBuilds (.build order :: xs) ys
  | build_right {xs ys} (order : DirectedGraph → DirectedGraph) : SameUpToBuilds xs ys → SameUpToBuilds xs (.build order :: ys)

end GC
