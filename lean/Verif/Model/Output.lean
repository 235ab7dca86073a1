/-
Model of what gc-build, gc-clean and gc-random print, on a standard output that may break (closed pipe, full disk).

`println!` panics when standard output cannot be written. Standard output takes whole lines here: either the line arrives, or nothing of it.
-/
import Verif.Model.Cycle
import Verif.Model.Random
namespace GC
namespace Output
open Store Text

/-- A process: the file system, the lines printed so far, and how many more lines standard output takes (`none`: no limit). For the `main` of
command/src/bin/gc-build.rs 5-44, gc-clean.rs 6-62, gc-random.rs 10-109. -/
structure State where
  fs : FS
  printed : List Text
  room : Option Nat

/-- std `println!`. Used at command/src/bin/gc-clean.rs 47, 53, 60, gc-random.rs 87, 106 and command/src/arg_utils.rs 44. -/
def say (line : Text) (s : State) : State × Exit :=
  match s.room with
  | none => (⟨s.fs, s.printed ++ [line], none⟩, .success)
  | some 0 => (s, .panic)
  | some (n + 1) => (⟨s.fs, s.printed ++ [line], some n⟩, .success)

/-- A part of a program that prints nothing. Used for the calls of graph_utils at command/src/bin/gc-clean.rs 55, gc-random.rs 93-101. -/
def onFiles (f : FS → FS × Exit) (s : State) : State × Exit := (⟨(f s.fs).1, s.printed, s.room⟩, (f s.fs).2)

/-- Sequence of steps of a program; a panic ends it. Parts of `main`, command/src/bin/gc-clean.rs 44-61, gc-random.rs 81-104. -/
def seq (r : State × Exit) (f : State → State × Exit) : State × Exit :=
  match r with
  | (s, .success) => f s
  | (s, .panic) => (s, .panic)

/-- Nothing is done. The missing `else` at command/src/bin/gc-clean.rs 52, 59. -/
def skip (s : State) : State × Exit := (s, .success)

/-- command/src/bin/gc-build.rs 35-38. -/
def buildReport (verbose : Bool) (g : DirectedGraph) (s : State) : State × Exit :=
  if verbose then
    seq (say ("Vertices: ".toList ++ GcCycle.showNat g.vertexCount) s) (say ("Edges: ".toList ++ GcCycle.showNat g.edgeCount))
  else skip s

/-- command/src/bin/gc-build.rs 31-44. `verbose` is what `is_present("verbose")` gives (32). -/
def gcBuild (nd : Char → Bool) (order : DirectedGraph → DirectedGraph) (root : FPath) (verbose : Bool) (s : State) : State × Exit :=
  match loadGraph nd root s.fs with
  | .done (.ok g) =>
    seq (buildReport verbose g s) fun s =>
    seq (onFiles (fun fs => expectOk (saveGraphAsCommands root (order g) fs)) s) (say "Done.".toList)
  | _ => (s, .panic)

/-- command/src/arg_utils.rs 42-53 and the `if` around it in gc-clean (44-50) and gc-random (81-90): asks, and goes on or aborts. -/
def confirm (question : Text) (answer : Text) (goOn : State → State × Exit) (s : State) : State × Exit :=
  seq (say question s) fun s => if Args.confirmationYesNo answer then goOn s else say "Aborting.".toList s

/-- command/src/bin/gc-clean.rs 52-61. -/
def cleanVerbosely (path : Text) (root : FPath) (silent : Bool) (s : State) : State × Exit :=
  seq (if silent then skip s else say ("Cleaning graph under '".toList ++ path ++ "' ...".toList) s) fun s =>
  seq (onFiles (fun fs => expectOk (clean root fs)) s) fun s =>
  if silent then skip s else say "Done.".toList s

/-- command/src/bin/gc-clean.rs 40-62. `path` is the argument as given, `root` the directory it means. -/
def gcClean (path : Text) (root : FPath) (force silent : Bool) (answer : Text) (s : State) : State × Exit :=
  if force then cleanVerbosely path root silent s
  else confirm ("Are you sure you want to clean graph at '".toList ++ path ++ "' ? (yes/no)".toList) answer (cleanVerbosely path root silent) s

/-- command/src/bin/gc-random.rs 80-107. -/
def randomFinish (order : DirectedGraph → DirectedGraph) (path : Text) (root : FPath) (force : Bool) (answer : Text) (s : State) :
    Option DirectedGraph → State × Exit
  | some g =>
    if force then onFiles (Random.replaceGraph root (order g)) s
    else confirm ("Creating a random graph will clean existing graph at '".toList ++ path ++ "' ? (yes/no)".toList) answer
      (onFiles (Random.replaceGraph root (order g))) s
  | none => say "Couldn't generate graph.".toList s

/-- command/src/bin/gc-random.rs 68-109. -/
def gcRandom (rng : Nat → UInt64) (order : DirectedGraph → DirectedGraph) (path : Text) (root : FPath) (force : Bool) (answer : Text)
    (vertexCount : Text) (edgeCount : Option Text) (s : State) : Prog (State × Exit) :=
  match Random.sizes vertexCount edgeCount with
  | .done (vc, ec) => Prog.bind (Random.createsRandomDag rng vc ec) fun g => Prog.ret (randomFinish order path root force answer s g)
  | _ => Prog.ret (s, .panic)

end Output
end GC
