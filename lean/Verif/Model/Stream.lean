/-
Model of the query commands as programs that print while they run (command/src/bin/gc-topo-sort.rs, gc-short-path.rs, gc-csp.rs,
gc-cycle.rs, gc-desc.rs), and of a standard output that may break.

A program is given by what it hands to `print!`/`println!`, in order, and by how it goes on; standard output does not influence it, but
that `print!` panics when a write fails. One call of `print!` is one piece of text here; std hands it on in several pieces.
-/
import Verif.Model.Main
namespace GC
namespace Stream
open Text Args Store Main

/-- What a program has printed with a given amount of fuel, and its outcome. Not in /repo: the meaning of a program that prints, such as
command/src/bin/gc-topo-sort.rs 27-36. -/
structure Sent (α : Type) where
  pieces : List Text
  outcome : Run α

/-- A program that prints. Not in /repo: the meaning of a program that prints, such as command/src/bin/gc-topo-sort.rs 27-36. -/
def Job (α : Type) : Type := Nat → Sent α

namespace Job

/-- A program that returns at once. Not in /repo: the meaning of a program that prints, such as command/src/bin/gc-topo-sort.rs 27-36. -/
def ret {α : Type} (a : α) : Job α := fun _ => ⟨[], .done a⟩

/-- A program that prints nothing. Not in /repo: the meaning of a program that prints, such as command/src/bin/gc-topo-sort.rs 27-36. -/
def lift {α : Type} (p : Prog α) : Job α := fun n => ⟨[], p n⟩

/-- std `print!`. std; the `print!` and `println!` are those of command/src/bin/gc-topo-sort.rs 29-35, gc-short-path.rs 62-73, gc-csp.rs 220-246,
gc-cycle.rs 250-271, gc-desc.rs 25-45. -/
def print (piece : Text) : Job Unit := fun _ => ⟨[piece], .done ()⟩

/-- std `println!`. std; the `print!` and `println!` are those of command/src/bin/gc-topo-sort.rs 29-35, gc-short-path.rs 62-73, gc-csp.rs 220-246,
gc-cycle.rs 250-271, gc-desc.rs 25-45. -/
def say (line : Text) : Job Unit := print (line ++ ['\n'])

/-- Sequencing of programs. Not in /repo: the meaning of a program that prints, such as command/src/bin/gc-topo-sort.rs 27-36. -/
def bind {α β : Type} (p : Job α) (f : α → Job β) : Job β := fun n =>
  match p n with
  | ⟨ps, .done a⟩ => ⟨ps ++ (f a n).pieces, (f a n).outcome⟩
  | ⟨ps, .panicked⟩ => ⟨ps, .panicked⟩
  | ⟨ps, .running⟩ => ⟨ps, .running⟩

/-- At most `k` iterations of the loop body, every body running with `fuel`. Not in /repo: the meaning of a program that prints, such as
command/src/bin/gc-topo-sort.rs 27-36. -/
def loopAux {σ β : Type} (step : σ → Job (σ ⊕ β)) (fuel : Nat) : Nat → σ → Sent β
  | 0, _ => ⟨[], .running⟩
  | k + 1, s =>
    match step s fuel with
    | ⟨ps, .running⟩ => ⟨ps, .running⟩
    | ⟨ps, .panicked⟩ => ⟨ps, .panicked⟩
    | ⟨ps, .done (.inl s')⟩ => ⟨ps ++ (loopAux step fuel k s').pieces, (loopAux step fuel k s').outcome⟩
    | ⟨ps, .done (.inr b)⟩ => ⟨ps, .done b⟩

/-- An unbounded loop: `step` returns `inl` to continue with a new state, `inr` to leave the loop. Not in /repo: the meaning of a program that
prints, such as command/src/bin/gc-topo-sort.rs 27-36. -/
def loop {σ β : Type} (step : σ → Job (σ ⊕ β)) (s : σ) : Job β := fun n => loopAux step n n s

/-- A `for` loop over a list with `print!` as its body. command/src/bin/gc-topo-sort.rs 30-32. -/
def printAll : List Text → Job Unit
  | [] => ret ()
  | t :: ts => bind (print t) fun _ => printAll ts

/-- A `for` loop over a list with `println!` as its body. command/src/bin/gc-short-path.rs 66-68, gc-csp.rs 225-227, 245-247. -/
def sayAll : List Text → Job Unit
  | [] => ret ()
  | t :: ts => bind (say t) fun _ => sayAll ts

/-- One round of `Iterator::for_each` with `println!`. command/src/bin/gc-cycle.rs 269, 271. -/
def forEachStep {σ α : Type} (next : σ → Prog (Option (α × σ))) (show_ : α → Text) (s : σ) : Job (σ ⊕ Unit) :=
  bind (lift (next s)) fun r =>
    match r with
    | none => ret (.inr ())
    | some (x, s') => bind (say (show_ x)) fun _ => ret (.inl s')

/-- `Iterator::for_each` with `println!`. command/src/bin/gc-cycle.rs 271. -/
def forEach {σ α : Type} (next : σ → Prog (Option (α × σ))) (show_ : α → Text) (s : σ) : Job Unit := loop (forEachStep next show_) s

/-- `Iterator::take(n)` and `for_each` with `println!`. command/src/bin/gc-cycle.rs 267-269. -/
def forEachOf {σ α : Type} (next : σ → Prog (Option (α × σ))) (show_ : α → Text) : Nat → σ → Job Unit
  | 0, _ => ret ()
  | n + 1, s => bind (lift (next s)) fun r =>
    match r with
    | none => ret ()
    | some (x, s') => bind (say (show_ x)) fun _ => forEachOf next show_ n s'

end Job
open Job

/-- command/src/bin/gc-topo-sort.rs 27-36. -/
def topoAnswer : Option (List VertexId) → Job Unit
  | some vs =>
    bind (print "Topological order: ".toList) fun _ =>
    bind (printAll (vs.map fun v => showId v ++ [' '])) fun _ => say []
  | none => say "Graph is not a DAG.".toList

/-- command/src/bin/gc-topo-sort.rs 23-37. -/
def gcTopoSort (nd : Char → Bool) (order : DirectedGraph → DirectedGraph) (root : FPath) (fs : FS) : Job Unit :=
  bind (lift (loadedGraph nd order root fs)) fun graph =>
  bind (lift (TopoSort.topologicalSort graph)) topoAnswer

/-- command/src/bin/gc-short-path.rs 56-74. -/
def shortPathAnswer (start end_ : VertexId) : Option ScoredPath → Job Unit
  | some sp =>
    bind (say ("Shortest path from vertex ".toList ++ showId start ++ " to vertex ".toList ++ showId end_ ++ " with total cost of ".toList ++
      showInt sp.score)) fun _ => sayAll (sp.path.vertices.map showId)
  | none => say ("Vertex ".toList ++ showId end_ ++ " is not reachable from vertex ".toList ++ showId start ++ ['.'])

/-- command/src/bin/gc-short-path.rs 42-75. -/
def gcShortPath (H : ScoredHeap) (nd : Char → Bool) (order : DirectedGraph → DirectedGraph) (root : FPath) (start end_ : Text) (fs : FS) :
    Job Unit :=
  bind (lift (Prog.lift (endpoint start))) fun s =>
  bind (lift (Prog.lift (endpoint end_))) fun e =>
  bind (lift (loadedGraph nd order root fs)) fun graph =>
  bind (lift (AStar.gcShortPath H graph s e)) (shortPathAnswer s e)

/-- command/src/bin/gc-csp.rs 244-247. -/
def announce (constraints : List Constraint) : Job Unit :=
  bind (say "Constraint that will be applied to search are: ".toList) fun _ => sayAll (constraints.map debugConstraint)

/-- command/src/bin/gc-csp.rs 215-233. -/
def cspAnswer (start end_ : VertexId) : Option ScoredPath → Job Unit
  | some sp =>
    bind (say ("Constrained shortest path from vertex ".toList ++ showId start ++ " to vertex ".toList ++ showId end_ ++
      " with total cost of ".toList ++ showInt sp.score ++ ['.'])) fun _ => sayAll (sp.path.vertices.map showId)
  | none => say ("Vertex ".toList ++ showId end_ ++ " is not reachable from vertex ".toList ++ showId start ++
      " within the given constraints.".toList)

/-- command/src/bin/gc-csp.rs 136-257. -/
def gcCsp (H : ScoredHeap) (nd : Char → Bool) (order : DirectedGraph → DirectedGraph) (root : FPath) (start end_ : Text) (a : CspArgs)
    (fs : FS) : Job Unit :=
  bind (lift (Prog.lift (endpoint start))) fun s =>
  bind (lift (Prog.lift (endpoint end_))) fun e =>
  bind (lift (loadedGraph nd order root fs)) fun graph =>
  bind (announce (cspConstraints a)) fun _ =>
  bind (lift (AStar.gcCsp H graph s e (cspConstraints a))) (cspAnswer s e)

/-- command/src/bin/gc-cycle.rs 250-273. -/
def cycleActions (graph : DirectedGraph) (a : GcCycle.Actions) (args : CycleArgs) : Job Unit :=
  let next := GcCycle.next graph (cycleConstraints args)
  let start := CycleIter.cycleIter graph
  if a.girth then bind (lift (CycleAlg.girth graph)) fun r => say ("girth: ".toList ++ GcCycle.formatGirth r)
  else if a.hamiltonian then bind (lift (CycleAlg.hamiltonian graph)) fun r => say ("hamiltonian: ".toList ++ GcCycle.formatCycleOpt r)
  else if a.count then bind (lift (Prog.consume List.length next start)) fun n => say ("count: ".toList ++ GcCycle.showNat n)
  else if a.shortest then
    bind (lift (Prog.consume (minByKey Cycle.len) next start)) fun r => say ("shortest cycle: ".toList ++ GcCycle.formatCycleOpt r)
  else if a.longest then
    bind (lift (Prog.consume (maxByKey Cycle.len) next start)) fun r => say ("longest cycle: ".toList ++ GcCycle.formatCycleOpt r)
  else
    match GcCycle.takeN a with
    | some n => forEachOf next GcCycle.formatCycle n start
    | none => if a.all then forEach next GcCycle.formatCycle start else ret ()

/-- command/src/bin/gc-cycle.rs 168-273. -/
def gcCycle (nd : Char → Bool) (order : DirectedGraph → DirectedGraph) (root : FPath) (act : GcCycle.Actions) (a : CycleArgs) (fs : FS) :
    Job Unit :=
  bind (lift (loadedGraph nd order root fs)) fun graph => cycleActions graph act a

/-- command/src/bin/gc-desc.rs 22-46. `path` is the argument as given. -/
def gcDesc (nd : Char → Bool) (path : Text) (root : FPath) (fs : FS) : Job Unit :=
  bind (lift (Prog.lift (Store.gcDesc nd root fs))) fun d =>
    sayAll ["Path: ".toList ++ path, "Vertices: ".toList ++ GcCycle.showNat d.vertices, "Edges: ".toList ++ GcCycle.showNat d.edges,
      "Min vertex id: ".toList ++ showExtreme d.minId, "Max vertex id: ".toList ++ showExtreme d.maxId]

/-- A query command with its arguments (for gc-desc the path as given). command/src/bin/gc-topo-sort.rs 23, gc-short-path.rs 43-54, gc-csp.rs
136-198, gc-cycle.rs 168-225, gc-desc.rs 22. -/
inductive Query where
  | topoSort
  | shortPath (start end_ : Text)
  | csp (start end_ : Text) (a : CspArgs)
  | cycle (act : GcCycle.Actions) (a : CycleArgs)
  | desc (path : Text)

/-- The program of a query command (the five files named at the top). command/src/bin/gc-topo-sort.rs 23-37, gc-short-path.rs 55-75, gc-csp.rs
200-234, gc-cycle.rs 226-273, gc-desc.rs 22-48. -/
def Query.job (H : ScoredHeap) (nd : Char → Bool) (order : DirectedGraph → DirectedGraph) (root : FPath) (fs : FS) : Query → Job Unit
  | .topoSort => gcTopoSort nd order root fs
  | .shortPath start end_ => gcShortPath H nd order root start end_ fs
  | .csp start end_ a => gcCsp H nd order root start end_ a fs
  | .cycle act a => gcCycle nd order root act a fs
  | .desc path => gcDesc nd path root fs

/-- Standard output of a process: what has arrived at its other end, what is still in the buffer of the process, and how many more
characters the other end takes (`none`: no limit). Only whole characters arrive here. std; the `print!` and `println!` are those of
command/src/bin/gc-topo-sort.rs 29-35, gc-short-path.rs 62-73, gc-csp.rs 220-246, gc-cycle.rs 250-271, gc-desc.rs 25-45. -/
structure Stdout where
  arrived : Text
  buffer : Text
  room : Option Nat

/-- The standard output of a new process. std; the `print!` and `println!` are those of command/src/bin/gc-topo-sort.rs 29-35, gc-short-path.rs
62-73, gc-csp.rs 220-246, gc-cycle.rs 250-271, gc-desc.rs 25-45. -/
def Stdout.fresh (room : Option Nat) : Stdout := ⟨[], [], room⟩

/-- `write_all` on the file descriptor: everything arrives, or a beginning and an error. std; the `print!` and `println!` are those of
command/src/bin/gc-topo-sort.rs 29-35, gc-short-path.rs 62-73, gc-csp.rs 220-246, gc-cycle.rs 250-271, gc-desc.rs 25-45. -/
def Stdout.writeAll (t : Text) (o : Stdout) : Stdout × Bool :=
  match o.room with
  | none => ({ o with arrived := o.arrived ++ t }, true)
  | some r => if t.length ≤ r then ({ o with arrived := o.arrived ++ t, room := some (r - t.length) }, true)
    else ({ o with arrived := o.arrived ++ t.take r, room := some 0 }, false)

/-- std `BufWriter::flush_buf`: on an error the part of the buffer that was not written is kept. std; the `print!` and `println!` are those of
command/src/bin/gc-topo-sort.rs 29-35, gc-short-path.rs 62-73, gc-csp.rs 220-246, gc-cycle.rs 250-271, gc-desc.rs 25-45. -/
def Stdout.flush (o : Stdout) : Stdout × Bool :=
  match Stdout.writeAll o.buffer o with
  | (o', true) => ({ o' with buffer := [] }, true)
  | (o', false) => ({ o' with buffer := o.buffer.drop (o'.arrived.length - o.arrived.length) }, false)

/-- The capacity of the buffer of standard output (std `LineWriter::new`). It counts characters here, bytes in std. std; the `print!` and
`println!` are those of command/src/bin/gc-topo-sort.rs 29-35, gc-short-path.rs 62-73, gc-csp.rs 220-246, gc-cycle.rs 250-271, gc-desc.rs 25-45. -/
def lineCapacity : Nat := 1024

/-- Rust's `?`: an error ends the function. std; the `print!` and `println!` are those of command/src/bin/gc-topo-sort.rs 29-35, gc-short-path.rs
62-73, gc-csp.rs 220-246, gc-cycle.rs 250-271, gc-desc.rs 25-45. -/
def Stdout.andThen (r : Stdout × Bool) (f : Stdout → Stdout × Bool) : Stdout × Bool :=
  match r with
  | (o, true) => f o
  | (o, false) => (o, false)

/-- std `BufWriter::write_all`. std; the `print!` and `println!` are those of command/src/bin/gc-topo-sort.rs 29-35, gc-short-path.rs 62-73,
gc-csp.rs 220-246, gc-cycle.rs 250-271, gc-desc.rs 25-45. -/
def Stdout.buffered (t : Text) (o : Stdout) : Stdout × Bool :=
  if o.buffer.length + t.length < lineCapacity then ({ o with buffer := o.buffer ++ t }, true)
  else
    Stdout.andThen (if lineCapacity - o.buffer.length < t.length then o.flush else (o, true)) fun o =>
    if lineCapacity ≤ t.length then Stdout.writeAll t o else ({ o with buffer := o.buffer ++ t }, true)

/-- The text up to and including its last newline, and the rest. std; the `print!` and `println!` are those of command/src/bin/gc-topo-sort.rs
29-35, gc-short-path.rs 62-73, gc-csp.rs 220-246, gc-cycle.rs 250-271, gc-desc.rs 25-45. -/
def splitLines : Text → Text × Text
  | [] => ([], [])
  | c :: t =>
    let (a, b) := splitLines t
    if c = '\n' ∨ a ≠ [] then (c :: a, b) else ([], c :: b)

/-- std `LineWriterShim::write_all`, the writer behind `print!`. std; the `print!` and `println!` are those of command/src/bin/gc-topo-sort.rs
29-35, gc-short-path.rs 62-73, gc-csp.rs 220-246, gc-cycle.rs 250-271, gc-desc.rs 25-45. -/
def Stdout.write (t : Text) (o : Stdout) : Stdout × Bool :=
  if (splitLines t).1 = [] then
    Stdout.andThen (if o.buffer.getLast? = some '\n' then o.flush else (o, true)) (Stdout.buffered t)
  else
    Stdout.andThen
      (if o.buffer = [] then Stdout.writeAll (splitLines t).1 o else Stdout.andThen (Stdout.buffered (splitLines t).1 o) Stdout.flush)
      (Stdout.buffered (splitLines t).2)

/-- `print!` of several pieces: an error stops the program (it panics). std; the `print!` and `println!` are those of
command/src/bin/gc-topo-sort.rs 29-35, gc-short-path.rs 62-73, gc-csp.rs 220-246, gc-cycle.rs 250-271, gc-desc.rs 25-45. -/
def Stdout.writes : List Text → Stdout → Stdout × Bool
  | [], o => (o, true)
  | t :: ts, o => Stdout.andThen (Stdout.write t o) (Stdout.writes ts)

/-- What a program with standard output `o` leaves there, and its outcome: the outcome of the program, or a panic if a piece could not be
written. std flushes the buffer when `main` ends, and ignores errors then. std; the `print!` and `println!` are those of
command/src/bin/gc-topo-sort.rs 29-35, gc-short-path.rs 62-73, gc-csp.rs 220-246, gc-cycle.rs 250-271, gc-desc.rs 25-45. -/
def onStdout (r : Sent Unit) (o : Stdout) : Text × Run Unit :=
  match Stdout.writes r.pieces o with
  | (o, true) =>
    match r.outcome with
    | .running => (o.arrived, .running)
    | out => (o.flush.1.arrived, out)
  | (o, false) => (o.flush.1.arrived, .panicked)

end Stream
end GC
