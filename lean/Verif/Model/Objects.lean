/-
The iterators as objects: `next(&mut self)` gives an answer and leaves a new state also when the answer is `None`, and may be called again
after that. `Model/Iter.lean` and `Model/Cycle.lean` leave out the state after `None`, since `collect`, `find` and `take` never look at it.
-/
import Verif.Model.Cycle
namespace GC
namespace Objects
variable {σ α ι : Type}

/-- `k` calls of `next` on the same object, one after the other. Not in /repo: what a caller of the iterators in core/src/iter can do, e.g.
core/src/iter/iter_depth.rs 16-39. -/
def calls (call : σ → Prog (Option α × σ)) : Nat → σ → Prog (List (Option α))
  | 0, _ => Prog.ret []
  | k + 1, s => Prog.bind (call s) fun r => Prog.bind (calls call k r.2) fun as => Prog.ret (r.1 :: as)

/-- core/src/iter/iter_depth.rs 23-40. Popping an empty stack leaves it as it is. -/
def depthFirst (g : DirectedGraph) (s : DepthFirstIter) : Prog (Option VertexId × DepthFirstIter) :=
  match s.stack.pop with
  | none => Prog.ret (none, s)
  | some (vid, stack) => Prog.ret (some vid, (g.outs vid).foldl DepthFirstIter.visit ⟨stack, s.visited⟩)

/-- core/src/iter/iter_depth.rs 80-99. -/
def depthFirstPath (g : DirectedGraph) (s : DepthFirstPathIter) : Prog (Option Path × DepthFirstPathIter) :=
  match s.stack.pop with
  | none => Prog.ret (none, s)
  | some (path, stack) =>
    Prog.lift ((Run.unwrap path.last).bind fun vid => .done (some path, (g.outs vid).foldl (DepthFirstPathIter.visit path) ⟨stack⟩))

/-- core/src/iter/iter_breadth.rs 18-34. Popping an empty queue leaves it as it is. -/
def breadthFirst (g : DirectedGraph) (s : BreadthFirstIter) : Prog (Option VertexId × BreadthFirstIter) :=
  match s.queue.pop with
  | none => Prog.ret (none, s)
  | some (vid, queue) => Prog.ret (some vid, (g.outs vid).foldl BreadthFirstIter.visit ⟨queue, s.visited⟩)

/-- core/src/iter/iter_breadth.rs 71-89. -/
def breadthFirstPath (g : DirectedGraph) (s : BreadthFirstPathIter) : Prog (Option Path × BreadthFirstPathIter) :=
  match s.queue.pop with
  | none => Prog.ret (none, s)
  | some (path, queue) =>
    Prog.lift ((Run.unwrap path.last).bind fun vid => .done (some path, (g.outs vid).foldl (BreadthFirstPathIter.visit path) ⟨queue⟩))

/-- core/src/iter/iter_best.rs 27-49. Popping an empty heap leaves it as it is. -/
def bestFirst {H : ScoredHeap} (g : DirectedGraph) (scorefn : ScoreFn) (s : BestFirstIter H) :
    Prog (Option ScoredPath × BestFirstIter H) :=
  match s.queue.pop with
  | none => Prog.ret (none, s)
  | some (wp, queue) =>
    Prog.lift ((Run.unwrap wp.path.last).bind fun vid =>
      (Run.forEach (BestFirstIter.visit g scorefn wp) ⟨queue, s.visited⟩ (g.outs vid)).bind fun s' => .done (some wp, s'))

/-- core/src/iter/iter_best_constraint.rs 27-50. -/
def constrained {H : ScoredHeap} (g : DirectedGraph) (scorefn : ScoreFn) (constraints : List Constraint)
    (s : ConstrainedBestFirstIter H) : Prog (Option ScoredPath × ConstrainedBestFirstIter H) :=
  match s.queue.pop with
  | none => Prog.ret (none, s)
  | some (wp, queue) =>
    Prog.lift ((Run.unwrap wp.path.last).bind fun vid =>
      (Run.forEach (ConstrainedBestFirstIter.visit g scorefn constraints wp) ⟨queue⟩ (g.outs vid)).bind fun s' => .done (some wp, s'))

/-- core/src/iter/iter_cycle.rs 86-107: one round of the `while let`. -/
def cycleStep (graph : DirectedGraph) (s : CycleIter) : Prog (CycleIter ⊕ (Option Cycle × CycleIter)) :=
  match s.stack.pop with
  | none => Prog.ret (.inr (none, s))
  | some (path, stack) =>
    Prog.lift ((CycleIter.extractCanonicalCycleFromLast path).bind fun r =>
      match r with
      | some cycle =>
        if s.returned.contains cycle then .done (.inl ⟨stack, s.returned⟩)
        else .done (.inr (some cycle, ⟨stack, cycle :: s.returned⟩))
      | none => (CycleIter.pushNext graph path stack).bind fun stack => .done (.inl ⟨stack, s.returned⟩))

/-- core/src/iter/iter_cycle.rs 84-109. -/
def cycle (graph : DirectedGraph) (s : CycleIter) : Prog (Option Cycle × CycleIter) := Prog.loop (cycleStep graph) s

/-- One round of std `Filter::next`. Used at core/src/algorithm/hamiltonian.rs 21. -/
def filterStep (p : α → Bool) (call : σ → Prog (Option α × σ)) (s : σ) : Prog (σ ⊕ (Option α × σ)) :=
  Prog.bind (call s) fun r =>
    match r with
    | (none, s') => Prog.ret (.inr (none, s'))
    | (some x, s') => if p x then Prog.ret (.inr (some x, s')) else Prog.ret (.inl s')

/-- std `Filter::next`. Used at core/src/algorithm/hamiltonian.rs 21. -/
def filter (p : α → Bool) (call : σ → Prog (Option α × σ)) (s : σ) : Prog (Option α × σ) := Prog.loop (filterStep p call) s

/-- One round of std `FlatMap::next`. The inner iterator is dropped when it answers `None`; the outer one is the list of what is left, which
goes on answering `None` at its end, as the iterator over the keys of a `HashMap` does. Used at core/src/algorithm/hamiltonian.rs 20. -/
def flatMapStep (f : ι → σ) (call : σ → Prog (Option α × σ)) (s : List ι × Option σ) :
    Prog ((List ι × Option σ) ⊕ (Option α × (List ι × Option σ))) :=
  match s with
  | (is, some t) => Prog.bind (call t) fun r =>
    match r with
    | (some x, t') => Prog.ret (.inr (some x, (is, some t')))
    | (none, _) => Prog.ret (.inl (is, none))
  | (i :: is, none) => Prog.ret (.inl (is, some (f i)))
  | ([], none) => Prog.ret (.inr (none, ([], none)))

/-- std `FlatMap::next`. Used at core/src/algorithm/hamiltonian.rs 20. -/
def flatMap (f : ι → σ) (call : σ → Prog (Option α × σ)) (s : List ι × Option σ) : Prog (Option α × (List ι × Option σ)) :=
  Prog.loop (flatMapStep f call) s

/-- core/src/algorithm/hamiltonian.rs 15-22: `next` of the returned iterator. -/
def hamiltonian (graph : DirectedGraph) (s : List VertexId × Option DepthFirstPathIter) :
    Prog (Option Path × (List VertexId × Option DepthFirstPathIter)) :=
  filter (fun p => p.size == graph.vertexCount) (flatMap DepthFirstPathIter.from_ (depthFirstPath graph)) s

end Objects
end GC
