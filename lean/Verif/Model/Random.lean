/-
Model of command/src/bin/gc-random.rs.

The random number generator (`rand::thread_rng`) is a stream of `u64`, `rng k` being the number of the `k`-th draw. The theorems
quantify over all streams.
-/
import Verif.Model.Store
namespace GC
namespace Random
open Store Text

/-- command/src/bin/gc-random.rs 123-128: the body of the inner loop for the vertex `vid` and the number `other` drawn. `dst - src`
does not underflow. -/
def addRandomEdge (layerSize : UInt64) (vid : Nat) (other : UInt64) (graph : DirectedGraph) : DirectedGraph :=
  let this := UInt64.ofNat vid
  let src := if this ≤ other then this else other
  let dst := if this ≤ other then other else this
  if dst - src > layerSize then (graph.addEdge ⟨⟨src⟩, ⟨dst⟩⟩).2 else graph

/-- The graph and the number of draws so far. command/src/bin/gc-random.rs 117-120. -/
structure RandomState where
  graph : DirectedGraph
  draws : Nat

/-- command/src/bin/gc-random.rs 122-129 for one `vid`. -/
def drawOne (rng : Nat → UInt64) (layerSize : UInt64) (s : RandomState) (vid : Nat) : RandomState :=
  ⟨addRandomEdge layerSize vid (rng s.draws) s.graph, s.draws + 1⟩

/-- command/src/bin/gc-random.rs 122-129: the loop over `1..vertex_count`. -/
def drawRound (rng : Nat → UInt64) (vertexCount : Nat) (s : RandomState) : RandomState :=
  (List.range' 1 (vertexCount - 1)).foldl (drawOne rng (UInt64.ofNat (vertexCount / 10))) s

/-- command/src/bin/gc-random.rs 121-130: one test of the outer loop. -/
def randomStep (rng : Nat → UInt64) (vertexCount edgeCount : Nat) (s : RandomState) : Prog (RandomState ⊕ DirectedGraph) :=
  if s.graph.edgeCount < edgeCount then Prog.ret (.inl (drawRound rng vertexCount s)) else Prog.ret (.inr s.graph)

/-- command/src/bin/gc-random.rs 115-133. -/
def createsRandomDag (rng : Nat → UInt64) (vertexCount edgeCount : Nat) : Prog (Option DirectedGraph) :=
  Prog.bind (Prog.loop (randomStep rng vertexCount edgeCount) ⟨.new, 0⟩) fun g => Prog.ret (some g)

/-- command/src/bin/gc-random.rs 70-75: the numbers of vertices and edges wanted. `vertex_count * 3` is computed also when it is not
used, and panics on overflow. -/
def sizes (vertexCount : Text) (edgeCount : Option Text) : Run (Nat × Nat) :=
  (Run.unwrap (parseUsize vertexCount)).bind fun vc =>
    if vc * 3 < 2 ^ 64 then .done (vc, (edgeCount.bind parseUsize).getD (vc * 3)) else .panicked

/-- command/src/bin/gc-random.rs 93-104: replaces the stored graph. -/
def replaceGraph (root : FPath) (g : DirectedGraph) (fs : FS) : FS × Exit :=
  andThen (expectOk (clean root fs)) fun fs =>
  andThen (expectOk (init root fs)) fun fs =>
  expectOk (saveGraphAsCommands root g fs)

/-- command/src/bin/gc-random.rs 80-107. `order` is the iteration order of the hash map when the graph is saved. -/
def finish (order : DirectedGraph → DirectedGraph) (root : FPath) (force : Bool) (answer : Text) (fs : FS) :
    Option DirectedGraph → FS × Exit
  | some g => if !force && !Args.confirmationYesNo answer then (fs, .success) else replaceGraph root (order g) fs
  | none => (fs, .success)

/-- command/src/bin/gc-random.rs 68-109. A panic while reading the sizes ends the program with the files unchanged. -/
def gcRandom (rng : Nat → UInt64) (order : DirectedGraph → DirectedGraph) (root : FPath) (force : Bool) (answer : Text)
    (vertexCount : Text) (edgeCount : Option Text) (fs : FS) : Prog (FS × Exit) :=
  match sizes vertexCount edgeCount with
  | .done (vc, ec) => Prog.bind (createsRandomDag rng vc ec) fun g => Prog.ret (finish order root force answer fs g)
  | _ => Prog.ret (fs, .panic)

/-- command/src/bin/gc-random.rs 15-66: what the command line gives. `cycle` has at least two values if it is given. -/
structure Options where
  path : FPath
  force : Bool
  connected : Bool
  cycle : Option (List Text)
  vertexCount : Text
  edgeCount : Option Text

/-- command/src/bin/gc-random.rs 11-109. The options `--connected` (32-38) and `--cycle` (39-47) are declared, but never read. -/
def main (rng : Nat → UInt64) (order : DirectedGraph → DirectedGraph) (o : Options) (answer : Text) (fs : FS) : Prog (FS × Exit) :=
  gcRandom rng order o.path o.force answer o.vertexCount o.edgeCount fs

end Random
end GC
