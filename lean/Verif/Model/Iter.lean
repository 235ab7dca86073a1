/-
Model of core/src/iter/iter_datastructure.rs, iter_depth.rs, iter_breadth.rs, iter_best.rs, iter_best_constraint.rs.

An iterator is its state together with a function `next` from states to programs returning the next item and the new state.
`std::collections::HashSet` is a list of its elements; only `contains` and `insert` of new elements are used.
-/
import Verif.Model.Prog
import Verif.Model.Constraint
namespace GC

/-- std `Iterator::for_each` (or a `for` loop) with a body that may panic. Used at core/src/iter/iter_best.rs 35, iter_best_constraint.rs 35,
core/src/algorithm/shortest_path.rs 37-38. -/
def Run.forEach {σ α : Type} (body : σ → α → Run σ) : σ → List α → Run σ
  | s, [] => .done s
  | s, a :: l => (body s a).bind fun s' => Run.forEach body s' l

/-! ### core/src/iter/iter_datastructure.rs -/

/-- core/src/iter/iter_datastructure.rs 17-19: `Stack { stack: LinkedList }`. -/
structure Stack (T : Type) where
  stack : List T

namespace Stack
/-- core/src/iter/iter_datastructure.rs 22-26. -/
def new {T : Type} : Stack T := ⟨[]⟩
/-- core/src/iter/iter_datastructure.rs 30-32 (`push_back`). -/
def push {T : Type} (s : Stack T) (elt : T) : Stack T := ⟨s.stack ++ [elt]⟩
/-- core/src/iter/iter_datastructure.rs 34-36 (`pop_back`). -/
def pop {T : Type} (s : Stack T) : Option (T × Stack T) := s.stack.getLast?.map fun x => (x, ⟨s.stack.dropLast⟩)
end Stack

/-- core/src/iter/iter_datastructure.rs 41-43: `Queue { queue: LinkedList }`. -/
structure Queue (T : Type) where
  queue : List T

namespace Queue
/-- core/src/iter/iter_datastructure.rs 46-50. -/
def new {T : Type} : Queue T := ⟨[]⟩
/-- core/src/iter/iter_datastructure.rs 54-56 (`push_back`). -/
def push {T : Type} (q : Queue T) (elt : T) : Queue T := ⟨q.queue ++ [elt]⟩
/-- core/src/iter/iter_datastructure.rs 58-60 (`pop_front`). -/
def pop {T : Type} (q : Queue T) : Option (T × Queue T) :=
  match q.queue with
  | [] => none
  | x :: l => some (x, ⟨l⟩)
end Queue

/-- std `BinaryHeap<T>` for an ordering `le`, as documented: `pop` removes a greatest item. Which one of several equal items is
removed is not fixed: every implementation satisfying the laws is an instance, and the theorems hold for all of them.
(The algorithm of the standard library is in `Verif/Model/StdHeap.lean`.). Used at core/src/iter/iter_datastructure.rs 66, 90. -/
structure BinaryHeap (T : Type) (le : T → T → Bool) where
  Heap : Type
  new : Heap
  push : Heap → T → Heap
  pop : Heap → Option (T × Heap)
  /-- the items in the heap -/
  items : Heap → List T
  items_new : items new = []
  items_push : ∀ h x, (items (push h x)).Perm (x :: items h)
  pop_none : ∀ h, pop h = none → items h = []
  pop_some : ∀ h x h', pop h = some (x, h') → (items h).Perm (x :: items h') ∧ ∀ y ∈ items h, le y x = true

/-- std `cmp::Reverse`. Used at core/src/iter/iter_datastructure.rs 90-107. -/
structure Reverse (T : Type) where
  get : T

/-- std `Ord for Reverse<T>`. Used at core/src/iter/iter_datastructure.rs 90-107. -/
def Reverse.le {T : Type} (le : T → T → Bool) (a b : Reverse T) : Bool := le b.get a.get

/-- core/src/iter/iter_datastructure.rs 65-67: `MaxPriorityQueue { priority_queue: BinaryHeap<T> }`. -/
structure MaxPriorityQueue (T : Type) (le : T → T → Bool) (H : BinaryHeap T le) where
  priorityQueue : H.Heap

namespace MaxPriorityQueue
variable {T : Type} {le : T → T → Bool} {H : BinaryHeap T le}
/-- core/src/iter/iter_datastructure.rs 70-74. -/
def new : MaxPriorityQueue T le H := ⟨H.new⟩
/-- core/src/iter/iter_datastructure.rs 78-80. -/
def push (q : MaxPriorityQueue T le H) (elt : T) : MaxPriorityQueue T le H := ⟨H.push q.priorityQueue elt⟩
/-- core/src/iter/iter_datastructure.rs 82-84. -/
def pop (q : MaxPriorityQueue T le H) : Option (T × MaxPriorityQueue T le H) :=
  (H.pop q.priorityQueue).map fun p => (p.1, ⟨p.2⟩)
end MaxPriorityQueue

/-- core/src/iter/iter_datastructure.rs 89-91: `MinPriorityQueue { priority_queue: BinaryHeap<Reverse<T>> }`. -/
structure MinPriorityQueue (T : Type) (le : T → T → Bool) (H : BinaryHeap (Reverse T) (Reverse.le le)) where
  priorityQueue : H.Heap

namespace MinPriorityQueue
variable {T : Type} {le : T → T → Bool} {H : BinaryHeap (Reverse T) (Reverse.le le)}
/-- core/src/iter/iter_datastructure.rs 94-98. -/
def new : MinPriorityQueue T le H := ⟨H.new⟩
/-- core/src/iter/iter_datastructure.rs 102-104. -/
def push (q : MinPriorityQueue T le H) (elt : T) : MinPriorityQueue T le H := ⟨H.push q.priorityQueue ⟨elt⟩⟩
/-- core/src/iter/iter_datastructure.rs 106-108. -/
def pop (q : MinPriorityQueue T le H) : Option (T × MinPriorityQueue T le H) :=
  (H.pop q.priorityQueue).map fun p => (p.1.get, ⟨p.2⟩)
end MinPriorityQueue

/-! ### core/src/iter/iter_depth.rs -/

/-- `graph.outbound_edges(v).map(|Edge(_, v)| v)`, used by all iterators. core/src/iter/iter_depth.rs 28, 88, iter_breadth.rs 23, 79, iter_best.rs
33, iter_best_constraint.rs 33, iter_cycle.rs 100. -/
def DirectedGraph.outs (g : DirectedGraph) (v : VertexId) : List VertexId := (g.outboundEdges v).map Edge.dst

/-- core/src/iter/iter_depth.rs 11-15: state of `DepthFirstIter`. -/
structure DepthFirstIter where
  stack : Stack VertexId
  visited : List VertexId

namespace DepthFirstIter
/-- core/src/iter/iter_depth.rs 30-35: body of the `for_each`. -/
def visit (s : DepthFirstIter) (v : VertexId) : DepthFirstIter :=
  if s.visited.contains v then s else ⟨s.stack.push v, v :: s.visited⟩
/-- core/src/iter/iter_depth.rs 23-40. -/
def next (g : DirectedGraph) (s : DepthFirstIter) : Prog (Option (VertexId × DepthFirstIter)) :=
  match s.stack.pop with
  | none => Prog.ret none
  | some (vid, stack) => Prog.ret (some (vid, (g.outs vid).foldl visit ⟨stack, s.visited⟩))
/-- core/src/iter/iter_depth.rs 59-65. -/
def empty : DepthFirstIter := ⟨.new, []⟩
/-- core/src/iter/iter_depth.rs 51-56. -/
def from_ (start : VertexId) : DepthFirstIter := ⟨empty.stack.push start, start :: empty.visited⟩
/-- core/src/iter/iter_depth.rs 43-48. -/
def start (g : DirectedGraph) : DepthFirstIter :=
  match g.headOption with
  | none => empty
  | some head => from_ head
end DepthFirstIter

/-- core/src/iter/iter_depth.rs 69-72: state of `DepthFirstPathIter`. -/
structure DepthFirstPathIter where
  stack : Stack Path

namespace DepthFirstPathIter
/-- core/src/iter/iter_depth.rs 90-94: body of the `for_each`. -/
def visit (path : Path) (s : DepthFirstPathIter) (v : VertexId) : DepthFirstPathIter :=
  if path.containsVertex v then s else ⟨s.stack.push (path.append v)⟩
/-- core/src/iter/iter_depth.rs 80-99. -/
def next (g : DirectedGraph) (s : DepthFirstPathIter) : Prog (Option (Path × DepthFirstPathIter)) :=
  match s.stack.pop with
  | none => Prog.ret none
  | some (path, stack) =>
    Prog.lift ((Run.unwrap path.last).bind fun vid => .done (some (path, (g.outs vid).foldl (visit path) ⟨stack⟩)))
/-- core/src/iter/iter_depth.rs 102-106 and 109-114. -/
def from_ (start : VertexId) : DepthFirstPathIter := ⟨Stack.new.push (.ofVertices [start])⟩
end DepthFirstPathIter

/-! ### core/src/iter/iter_breadth.rs -/

/-- core/src/iter/iter_breadth.rs 10-14: state of `BreadthFirstIter`. -/
structure BreadthFirstIter where
  queue : Queue VertexId
  visited : List VertexId

namespace BreadthFirstIter
/-- core/src/iter/iter_breadth.rs 25-30: body of the `for_each`. -/
def visit (s : BreadthFirstIter) (v : VertexId) : BreadthFirstIter :=
  if s.visited.contains v then s else ⟨s.queue.push v, v :: s.visited⟩
/-- core/src/iter/iter_breadth.rs 18-34. -/
def next (g : DirectedGraph) (s : BreadthFirstIter) : Prog (Option (VertexId × BreadthFirstIter)) :=
  match s.queue.pop with
  | none => Prog.ret none
  | some (vid, queue) => Prog.ret (some (vid, (g.outs vid).foldl visit ⟨queue, s.visited⟩))
/-- core/src/iter/iter_breadth.rs 54-60. -/
def empty : BreadthFirstIter := ⟨.new, []⟩
/-- core/src/iter/iter_breadth.rs 46-51. -/
def from_ (start : VertexId) : BreadthFirstIter := ⟨empty.queue.push start, start :: empty.visited⟩
/-- core/src/iter/iter_breadth.rs 38-43. -/
def start (g : DirectedGraph) : BreadthFirstIter :=
  match g.headOption with
  | none => empty
  | some head => from_ head
end BreadthFirstIter

/-- core/src/iter/iter_breadth.rs 64-67: state of `BreadthFirstPathIter`. -/
structure BreadthFirstPathIter where
  queue : Queue Path

namespace BreadthFirstPathIter
/-- core/src/iter/iter_breadth.rs 81-85: body of the `for_each`. -/
def visit (path : Path) (s : BreadthFirstPathIter) (v : VertexId) : BreadthFirstPathIter :=
  if path.containsVertex v then s else ⟨s.queue.push (path.append v)⟩
/-- core/src/iter/iter_breadth.rs 71-89. -/
def next (g : DirectedGraph) (s : BreadthFirstPathIter) : Prog (Option (Path × BreadthFirstPathIter)) :=
  match s.queue.pop with
  | none => Prog.ret none
  | some (path, queue) =>
    Prog.lift ((Run.unwrap path.last).bind fun vid => .done (some (path, (g.outs vid).foldl (visit path) ⟨queue⟩)))
/-- core/src/iter/iter_breadth.rs 93-97 and 100-105. -/
def from_ (start : VertexId) : BreadthFirstPathIter := ⟨Queue.new.push (.ofVertices [start])⟩
end BreadthFirstPathIter

/-! ### core/src/iter/iter_best.rs -/

/-- The heaps used for scored paths: any `BinaryHeap<Reverse<ScoredPath>>`. core/src/iter/iter_datastructure.rs 88-109, as used by iter_best.rs and
iter_best_constraint.rs. -/
abbrev ScoredHeap := BinaryHeap (Reverse ScoredPath) (Reverse.le ScoredPath.le)

/-- A scoring closure `Fn(&DirectedGraph, &Path) -> i64`; it may panic. core/src/iter/iter_best.rs 14, 24, 59, 72, iter_best_constraint.rs 14, 24,
66, 82. -/
abbrev ScoreFn := DirectedGraph → Path → Run Int

/-- core/src/iter/iter_best.rs 12-20: state of `BestFirstIter`. -/
structure BestFirstIter (H : ScoredHeap) where
  queue : MinPriorityQueue ScoredPath ScoredPath.le H
  visited : List VertexId

namespace BestFirstIter
variable {H : ScoredHeap}
/-- core/src/iter/iter_best.rs 35-45: body of the `for_each`. -/
def visit (g : DirectedGraph) (scorefn : ScoreFn) (wp : ScoredPath) (s : BestFirstIter H) (v : VertexId) : Run (BestFirstIter H) :=
  if s.visited.contains v then .done s
  else (scorefn g (wp.path.append v)).bind fun score => .done ⟨s.queue.push ⟨wp.path.append v, score⟩, v :: s.visited⟩
/-- core/src/iter/iter_best.rs 27-49. -/
def next (g : DirectedGraph) (scorefn : ScoreFn) (s : BestFirstIter H) : Prog (Option (ScoredPath × BestFirstIter H)) :=
  match s.queue.pop with
  | none => Prog.ret none
  | some (wp, queue) =>
    Prog.lift ((Run.unwrap wp.path.last).bind fun vid =>
      (Run.forEach (visit g scorefn wp) ⟨queue, s.visited⟩ (g.outs vid)).bind fun s' => .done (some (wp, s')))
/-- core/src/iter/iter_best.rs 70-80. -/
def empty : BestFirstIter H := ⟨.new, []⟩
/-- core/src/iter/iter_best.rs 53-67. -/
def from_ (g : DirectedGraph) (scorefn : ScoreFn) (start : VertexId) : Run (BestFirstIter H) :=
  (scorefn g (Path.empty.append start)).bind fun score =>
    .done ⟨(empty (H := H)).queue.push ⟨Path.empty.append start, score⟩, start :: (empty (H := H)).visited⟩
end BestFirstIter

/-! ### core/src/iter/iter_best_constraint.rs -/

/-- core/src/iter/iter_best_constraint.rs 12-20: state of `ConstrainedBestFirstIter`. -/
structure ConstrainedBestFirstIter (H : ScoredHeap) where
  queue : MinPriorityQueue ScoredPath ScoredPath.le H

namespace ConstrainedBestFirstIter
variable {H : ScoredHeap}
/-- core/src/iter/iter_best_constraint.rs 53-55. -/
def checkAllPartial (sp : ScoredPath) (constraints : List Constraint) : Bool := constraints.all fun c => c.checkPartial sp
/-- core/src/iter/iter_best_constraint.rs 35-46: body of the `for_each`. -/
def visit (g : DirectedGraph) (scorefn : ScoreFn) (constraints : List Constraint) (wp : ScoredPath)
    (s : ConstrainedBestFirstIter H) (v : VertexId) : Run (ConstrainedBestFirstIter H) :=
  (scorefn g (wp.path.append v)).bind fun score =>
    if checkAllPartial ⟨wp.path.append v, score⟩ constraints then .done ⟨s.queue.push ⟨wp.path.append v, score⟩⟩ else .done s
/-- core/src/iter/iter_best_constraint.rs 27-50. -/
def next (g : DirectedGraph) (scorefn : ScoreFn) (constraints : List Constraint) (s : ConstrainedBestFirstIter H) :
    Prog (Option (ScoredPath × ConstrainedBestFirstIter H)) :=
  match s.queue.pop with
  | none => Prog.ret none
  | some (wp, queue) =>
    Prog.lift ((Run.unwrap wp.path.last).bind fun vid =>
      (Run.forEach (visit g scorefn constraints wp) ⟨queue⟩ (g.outs vid)).bind fun s' => .done (some (wp, s')))
/-- core/src/iter/iter_best_constraint.rs 59-73 and 76-90. The first path is put in the queue without being checked. -/
def from_ (g : DirectedGraph) (scorefn : ScoreFn) (start : VertexId) : Run (ConstrainedBestFirstIter H) :=
  (scorefn g (Path.empty.append start)).bind fun score =>
    .done ⟨MinPriorityQueue.new.push ⟨Path.empty.append start, score⟩⟩
end ConstrainedBestFirstIter

end GC
