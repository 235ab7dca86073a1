/-
Specification notions for the graph iterators.
-/
import Verif.Model.Iter
import Verif.Spec.Graph
import Verif.Spec.Constraint
namespace GC

/-- `n` is the distance from `u` to `v`: the smallest number of edges of a walk from `u` to `v`. -/
def Dist (g : DirectedGraph) (u v : VertexId) (n : Nat) : Prop :=
  (∃ l, WalkFromTo g u v l ∧ l.length = n + 1) ∧ ∀ l, WalkFromTo g u v l → n + 1 ≤ l.length

/-- What happened to a container: `History new push pop a b q` says that starting from `new` the items `a` were pushed in this order,
the items `b` were popped in this order (interleaved in any way), and the state is now `q`. -/
inductive History {T Q : Type} (new : Q) (push : Q → T → Q) (pop : Q → Option (T × Q)) : List T → List T → Q → Prop where
  | new : History new push pop [] [] new
  | push {a b q} (x : T) : History new push pop a b q → History new push pop (a ++ [x]) b (push q x)
  | pop {a b q x q'} : History new push pop a b q → pop q = some (x, q') → History new push pop a (b ++ [x]) q'

mutual
/-- `DfsFrom g vis v l`: a depth-first visit of the unvisited vertex `v` when the vertices `vis` were visited before may visit, in this
order, the vertices `l`: first `v`, then what is found through its out-neighbours, one after the other. -/
inductive DfsFrom (g : DirectedGraph) : List VertexId → VertexId → List VertexId → Prop where
  | visit {vis v l} : v ∉ vis → DfsOuts g (v :: vis) v l → DfsFrom g vis v (v :: l)
/-- `DfsOuts g vis v l`: exploring the out-neighbours of `v` that are not in `vis`, in any order, visits `l`. -/
inductive DfsOuts (g : DirectedGraph) : List VertexId → VertexId → List VertexId → Prop where
  | done {vis v} : (∀ w, Adj g v w → w ∈ vis) → DfsOuts g vis v []
  | next {vis v w l l'} : Adj g v w → DfsFrom g vis w l → DfsOuts g (l ++ vis) v l' → DfsOuts g vis v (l ++ l')
end

/-- `Preorder children vs l`: `l` lists the trees with the roots `vs` one after the other, each node before the trees of its children. -/
inductive Preorder {α : Type} (children : α → List α) : List α → List α → Prop where
  | nil : Preorder children [] []
  | cons {v vs l l'} : Preorder children (children v) l → Preorder children vs l' → Preorder children (v :: vs) (v :: (l ++ l'))

/-- The path `l` extended by one edge to a vertex that is not on it, in the order of the edges. -/
def extensions (g : DirectedGraph) (l : List VertexId) : List (List VertexId) :=
  match l.getLast? with
  | none => []
  | some u => (((g.outboundEdges u).map Edge.dst).filter fun v => !l.contains v).map fun v => l ++ [v]

/-- The out-neighbours of `u`, in the order of its edges, that are first found by `u` when the vertices are processed in the given order:
no vertex before `u` has an edge to them, and they are not the start. -/
def foundBy (g : DirectedGraph) (start : VertexId) (order : List VertexId) (u : VertexId) : List VertexId :=
  ((g.outboundEdges u).map Edge.dst).filter fun w => w != start && (order.takeWhile (· != u)).all fun u' => !g.containsEdge ⟨u', w⟩

/-- The scoring closure computes `f` on all simple paths from `start` (and does not panic there). -/
def ScoresBy (g : DirectedGraph) (start : VertexId) (scorefn : ScoreFn) (f : Path → Int) : Prop :=
  ∀ p : Path, SimplePathFrom g start p.vertices → scorefn g p = .done (f p)

/-- `l` is a walk starting at `start`. -/
def WalkFrom (g : DirectedGraph) (start : VertexId) (l : List VertexId) : Prop := l.IsChain (Adj g) ∧ l.head? = some start

/-- A scored walk from `start` that partial checking does not prune: it carries the score given by the scoring closure, and each of its
extensions of the first vertex, with its own score, did not yet break a constraint. -/
def Unpruned (g : DirectedGraph) (scorefn : ScoreFn) (constraints : List Constraint) (start : VertexId) (sp : ScoredPath) : Prop :=
  WalkFrom g start sp.path.vertices ∧ scorefn g sp.path = .done sp.score ∧
  ∀ q : Path, q.vertices <+: sp.path.vertices → 2 ≤ q.vertices.length →
    ∃ s, scorefn g q = .done s ∧ ∀ c ∈ constraints, NotYetBroken ⟨q, s⟩ c

/-- The scoring closure is monotone along walks from `start`: whenever a walk has a score, the walk one step shorter has one, which is
not larger. -/
def MonotoneScore (g : DirectedGraph) (scorefn : ScoreFn) (start : VertexId) : Prop :=
  ∀ (p : Path) (v : VertexId) (b : Int), p.vertices ≠ [] → WalkFrom g start (p.vertices ++ [v]) →
    scorefn g (p.append v) = .done b → ∃ a, scorefn g p = .done a ∧ a ≤ b

end GC
