/-
Model of core/src/iter/iter_cycle.rs, core/src/algorithm/cycle.rs, core/src/algorithm/hamiltonian.rs and of the body of
command/src/bin/gc-cycle.rs.
-/
import Verif.Model.Iter
import Verif.Model.Args
namespace GC

/-! ### Iterator adaptors of the standard library -/

namespace Prog

/-- One round of `Filter::next`. std, used at core/src/algorithm/cycle.rs 47, hamiltonian.rs 21, command/src/bin/gc-cycle.rs 241. -/
def filterStep {σ α : Type} (p : α → Bool) (next : σ → Prog (Option (α × σ))) (s : σ) : Prog (σ ⊕ Option (α × σ)) :=
  bind (next s) fun r =>
    match r with
    | none => ret (.inr none)
    | some (x, s') => if p x then ret (.inr (some (x, s'))) else ret (.inl s')

/-- std `Iterator::filter`. Used at core/src/algorithm/cycle.rs 47, hamiltonian.rs 21, command/src/bin/gc-cycle.rs 241. -/
def filterNext {σ α : Type} (p : α → Bool) (next : σ → Prog (Option (α × σ))) (s : σ) : Prog (Option (α × σ)) :=
  loop (filterStep p next) s

/-- One round of `FlatMap::next`: the state is what is left of the outer iterator (a list here) and the current inner iterator. std, used at
core/src/algorithm/hamiltonian.rs 20. -/
def flatMapStep {σ α ι : Type} (f : ι → σ) (next : σ → Prog (Option (α × σ))) (s : List ι × Option σ) :
    Prog ((List ι × Option σ) ⊕ Option (α × (List ι × Option σ))) :=
  match s with
  | (is, some t) => bind (next t) fun r =>
    match r with
    | some (x, t') => ret (.inr (some (x, (is, some t'))))
    | none => ret (.inl (is, none))
  | (i :: is, none) => ret (.inl (is, some (f i)))
  | ([], none) => ret (.inr none)

/-- std `Iterator::flat_map` over a list. Used at core/src/algorithm/hamiltonian.rs 20. -/
def flatMapNext {σ α ι : Type} (f : ι → σ) (next : σ → Prog (Option (α × σ))) (s : List ι × Option σ) :
    Prog (Option (α × (List ι × Option σ))) :=
  loop (flatMapStep f next) s

/-- `iterator.next()` with the iterator dropped afterwards. Used at core/src/algorithm/cycle.rs 48, hamiltonian.rs 26, max_flow.rs 92. -/
def nextOnly {σ α : Type} (next : σ → Prog (Option (α × σ))) (s : σ) : Prog (Option α) :=
  bind (next s) fun r => ret (r.map Prod.fst)

/-- std `Iterator` consumers (`count`, `min`, `min_by_key`, `max_by_key`): all items are taken, then `f` is computed. The real code
folds over the items while taking them. Used at core/src/algorithm/cycle.rs 12, 28, 33, 38 and command/src/bin/gc-cycle.rs 255-266. -/
def consume {σ α β : Type} (f : List α → β) (next : σ → Prog (Option (α × σ))) (s : σ) : Prog β :=
  bind (collect next s) fun xs => ret (f xs)

end Prog

/-- std `Iterator::min_by_key` (and `min_by`, `min`): the first of the smallest items. Used at core/src/algorithm/cycle.rs 28, 33 and
core/src/iter/iter_cycle.rs 57, 71. -/
def minByKey {α : Type} (key : α → Nat) : List α → Option α
  | [] => none
  | x :: l => some (l.foldl (fun a b => if key b < key a then b else a) x)

/-- std `Iterator::max_by_key`: the last of the greatest items. Used at core/src/algorithm/cycle.rs 38 and command/src/bin/gc-cycle.rs 264. -/
def maxByKey {α : Type} (key : α → Nat) : List α → Option α
  | [] => none
  | x :: l => some (l.foldl (fun a b => if key b < key a then a else b) x)

/-- itertools `unique().count()`, with the set of the items seen so far. Used at core/src/iter/iter_cycle.rs 24. -/
def uniqueCount : List VertexId → List VertexId → Nat
  | _, [] => 0
  | seen, v :: l => if seen.contains v then uniqueCount seen l else uniqueCount (v :: seen) l + 1

/-- std `rposition(|x| x == v)`: the last position of `v`. Used at core/src/iter/iter_cycle.rs 155. -/
def rposition (v : VertexId) : List VertexId → Option Nat
  | [] => none
  | x :: l =>
    match rposition v l with
    | some i => some (i + 1)
    | none => if x = v then some 0 else none

/-! ### core/src/iter/iter_cycle.rs -/

/-- core/src/iter/iter_cycle.rs 13-15. -/
structure Cycle where
  vertices : List VertexId
deriving DecidableEq, Repr

namespace Cycle

/-- core/src/iter/iter_cycle.rs 23-31. -/
def fromVertices (vertices : List VertexId) : Option Cycle :=
  if decide (vertices.length < 2) || vertices.length != uniqueCount [] vertices then none else some ⟨vertices⟩

/-- core/src/iter/iter_cycle.rs 18-20. -/
def fromPath (path : Path) : Option Cycle := fromVertices path.vertices

/-- core/src/iter/iter_cycle.rs 35-37. -/
def asPath (c : Cycle) : Path := .ofVertices c.vertices

/-- core/src/iter/iter_cycle.rs 40-42. -/
def len (c : Cycle) : Nat := c.vertices.length

/-- core/src/iter/iter_cycle.rs 51-64. `enumerate().min_by` compares the vertices; `rotate_left` is split as in its documentation. -/
def canonical (c : Cycle) : Run Cycle :=
  (Run.unwrap (minByKey (fun p : VertexId × Nat => p.1.id.toNat) c.vertices.zipIdx)).bind fun p =>
    .done ⟨c.vertices.drop p.2 ++ c.vertices.take p.2⟩

/-- core/src/iter/iter_cycle.rs 67-74. -/
def isCanonical (c : Cycle) : Run Bool :=
  (Run.unwrap (minByKey (fun v : VertexId => v.id.toNat) c.vertices)).bind fun m =>
    .done (decide (c.vertices.head? = some m))

end Cycle

/-- core/src/iter/iter_cycle.rs 77-81: state of `CycleIter`. The hash set of returned cycles is a list. -/
structure CycleIter where
  stack : Stack Path
  returned : List Cycle

namespace CycleIter

/-- core/src/iter/iter_cycle.rs 150-161. -/
def extractCanonicalCycleFromLast (path : Path) : Run (Option Cycle) :=
  match path.last.bind fun last => rposition last path.vertices.dropLast with
  | none => .done none
  | some start => (Cycle.canonical ⟨path.vertices.dropLast.drop start⟩).bind fun c => .done (some c)

/-- core/src/iter/iter_cycle.rs 96-102: the last vertex and the paths pushed. -/
def pushNext (graph : DirectedGraph) (path : Path) (stack : Stack Path) : Run (Stack Path) :=
  (Run.unwrap path.last).bind fun last => .done ((graph.outs last).foldl (fun st v => st.push (path.append v)) stack)

/-- core/src/iter/iter_cycle.rs 86-104: one round of the `while let`. -/
def step (graph : DirectedGraph) (s : CycleIter) : Prog (CycleIter ⊕ Option (Cycle × CycleIter)) :=
  match s.stack.pop with
  | none => Prog.ret (.inr none)
  | some (path, stack) =>
    Prog.lift ((extractCanonicalCycleFromLast path).bind fun r =>
      match r with
      | some cycle =>
        if s.returned.contains cycle then .done (.inl ⟨stack, s.returned⟩)
        else .done (.inr (some (cycle, ⟨stack, cycle :: s.returned⟩)))
      | none => (pushNext graph path stack).bind fun stack => .done (.inl ⟨stack, s.returned⟩))

/-- core/src/iter/iter_cycle.rs 84-109. -/
def next (graph : DirectedGraph) (s : CycleIter) : Prog (Option (Cycle × CycleIter)) := Prog.loop (step graph) s

/-- core/src/iter/iter_cycle.rs 133-144. -/
def findStartingEdges (graph : DirectedGraph) : List VertexId :=
  let res := graph.vertices.filter fun v => (graph.inboundEdges v).length == 0
  if res.isEmpty then res ++ graph.headOption.toList else res

/-- core/src/iter/iter_cycle.rs 124-130. -/
def empty : CycleIter := ⟨.new, []⟩

/-- core/src/iter/iter_cycle.rs 113-121. -/
def cycleIter (graph : DirectedGraph) : CycleIter :=
  (findStartingEdges graph).foldl (fun it v => ⟨it.stack.push (.ofVertices [v]), it.returned⟩) empty

end CycleIter

/-! ### core/src/algorithm/cycle.rs -/

namespace CycleAlg
open CycleIter

/-- core/src/algorithm/cycle.rs 6-8. -/
def first (graph : DirectedGraph) : Prog (Option Cycle) := Prog.nextOnly (next graph) (cycleIter graph)
/-- core/src/algorithm/cycle.rs 11-13. -/
def count (graph : DirectedGraph) : Prog Nat := Prog.consume List.length (next graph) (cycleIter graph)
/-- core/src/algorithm/cycle.rs 16-18. -/
def take (graph : DirectedGraph) (n : Nat) : Prog (List Cycle) := Prog.takeN (next graph) n (cycleIter graph)
/-- core/src/algorithm/cycle.rs 22-24. -/
def takeAll (graph : DirectedGraph) : Prog (List Cycle) := Prog.collect (next graph) (cycleIter graph)
/-- core/src/algorithm/cycle.rs 27-29. -/
def girth (graph : DirectedGraph) : Prog (Option Nat) :=
  Prog.consume (fun cs => minByKey id (cs.map Cycle.len)) (next graph) (cycleIter graph)
/-- core/src/algorithm/cycle.rs 32-34. -/
def shortest (graph : DirectedGraph) : Prog (Option Cycle) := Prog.consume (minByKey Cycle.len) (next graph) (cycleIter graph)
/-- core/src/algorithm/cycle.rs 37-39. -/
def longest (graph : DirectedGraph) : Prog (Option Cycle) := Prog.consume (maxByKey Cycle.len) (next graph) (cycleIter graph)
/-- core/src/algorithm/cycle.rs 45-49. -/
def hamiltonian (graph : DirectedGraph) : Prog (Option Cycle) :=
  Prog.nextOnly (Prog.filterNext (fun c => c.len == graph.vertexCount) (next graph)) (cycleIter graph)

end CycleAlg

/-! ### core/src/algorithm/hamiltonian.rs -/

namespace Hamiltonian

/-- core/src/algorithm/hamiltonian.rs 15-22: `next` of the returned iterator. -/
def next (graph : DirectedGraph) (s : List VertexId × Option DepthFirstPathIter) :
    Prog (Option (Path × (List VertexId × Option DepthFirstPathIter))) :=
  Prog.filterNext (fun p => p.size == graph.vertexCount)
    (Prog.flatMapNext DepthFirstPathIter.from_ (DepthFirstPathIter.next graph)) s

/-- core/src/algorithm/hamiltonian.rs 15-22: the initial state of the returned iterator. -/
def iter (graph : DirectedGraph) : List VertexId × Option DepthFirstPathIter := (graph.vertices, none)

/-- core/src/algorithm/hamiltonian.rs 25-27. -/
def firstPath (graph : DirectedGraph) : Prog (Option Path) := Prog.nextOnly (next graph) (iter graph)

/-- core/src/algorithm/hamiltonian.rs 9-11. -/
def isHamiltonian (graph : DirectedGraph) : Prog Bool :=
  if graph.isEmpty then Prog.ret true else Prog.bind (firstPath graph) fun r => Prog.ret r.isSome

/-- core/src/algorithm/hamiltonian.rs 31-33. -/
def isPathHamiltonian (path : Path) (graph : DirectedGraph) : Bool :=
  !path.containsCycle && path.size == graph.vertexCount

end Hamiltonian

/-! ### command/src/bin/gc-cycle.rs -/

namespace GcCycle
open Text Args

/-- The action options of gc-cycle (command/src/bin/gc-cycle.rs 27-88). -/
structure Actions where
  girth : Bool := false
  hamiltonian : Bool := false
  count : Bool := false
  head : Bool := false
  takeN : Option Text := none
  all : Bool := false
  shortest : Bool := false
  longest : Bool := false

/-- command/src/bin/gc-cycle.rs 324-332 with the scoring closure of 246: the size of the path, as an `i64` (its `unwrap` panics from
2^63 on). -/
def check (cycle : Cycle) (constraints : List Constraint) : Bool :=
  constraints.all fun c => c.checkComplete ⟨cycle.asPath, (cycle.asPath.size : Int)⟩

/-- std `Display` of `usize`. Used at command/src/bin/gc-cycle.rs 255, 339. -/
def showNat (n : Nat) : Text := showU64 (UInt64.ofNat n)

/-- command/src/bin/gc-cycle.rs 336-341. -/
def formatGirth (g : Option Nat) : Text :=
  match g with
  | some 0 => "Infinity".toList
  | none => "Infinity".toList
  | some n => showNat n

/-- std `Debug` of a `Vec` of integers: items separated by a comma and a space. Used at command/src/bin/gc-cycle.rs 343-348. -/
def showList : List VertexId → Text
  | [] => []
  | [v] => showId v
  | v :: l => showId v ++ ", ".toList ++ showList l

/-- command/src/bin/gc-cycle.rs 343-348. -/
def formatCycle (c : Cycle) : Text := "[".toList ++ showList c.vertices ++ "]".toList

/-- command/src/bin/gc-cycle.rs 350-355. -/
def formatCycleOpt (c : Option Cycle) : Text :=
  match c with
  | some c => formatCycle c
  | none => "N/A".toList

/-- command/src/bin/gc-cycle.rs 179-184. -/
def takeN (a : Actions) : Option Nat := if a.head then some 1 else a.takeN.bind parseUsize

/-- command/src/bin/gc-cycle.rs 241-248: `next` of the filtered iterator. -/
def next (graph : DirectedGraph) (constraints : List Constraint) (s : CycleIter) : Prog (Option (Cycle × CycleIter)) :=
  Prog.filterNext (fun c => check c constraints) (CycleIter.next graph) s

/-- command/src/bin/gc-cycle.rs 168-273 after loading the graph: the lines printed. A loop that prints every item is modelled as
collecting the items and printing them afterwards; see Model/Stream.lean for the order in which things happen. -/
def main (graph : DirectedGraph) (a : Actions) (args : CycleArgs) : Prog (List Text) :=
  let cs := cycleConstraints args
  let start := CycleIter.cycleIter graph
  if a.girth then Prog.bind (CycleAlg.girth graph) fun r => Prog.ret ["girth: ".toList ++ formatGirth r]
  else if a.hamiltonian then
    Prog.bind (CycleAlg.hamiltonian graph) fun r => Prog.ret ["hamiltonian: ".toList ++ formatCycleOpt r]
  else if a.count then Prog.bind (Prog.consume List.length (next graph cs) start) fun n => Prog.ret ["count: ".toList ++ showNat n]
  else if a.shortest then
    Prog.bind (Prog.consume (minByKey Cycle.len) (next graph cs) start) fun r => Prog.ret ["shortest cycle: ".toList ++ formatCycleOpt r]
  else if a.longest then
    Prog.bind (Prog.consume (maxByKey Cycle.len) (next graph cs) start) fun r => Prog.ret ["longest cycle: ".toList ++ formatCycleOpt r]
  else
    match takeN a with
    | some n => Prog.bind (Prog.takeN (next graph cs) n start) fun l => Prog.ret (l.map formatCycle)
    | none =>
      if a.all then Prog.bind (Prog.collect (next graph cs) start) fun l => Prog.ret (l.map formatCycle) else Prog.ret []

end GcCycle
end GC
