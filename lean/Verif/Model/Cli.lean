/-
The command lines of the binaries in command/src/bin: the declared arguments, in the order of the calls in the code, and what is done with
them. `Model/Clap.lean` has the parser.
-/
import Verif.Model.Clap
import Verif.Model.History
import Verif.Model.Stream
namespace GC
namespace Cli
open Text Args Store Clap

/-- The binaries in command/src/bin. gc-add.rs 7, gc-build.rs 5, gc-clean.rs 6, gc-csp.rs 10, gc-cycle.rs 14, gc-delete.rs 7, gc-desc.rs 6,
gc-init.rs 5, gc-random.rs 10, gc-short-path.rs 9, gc-topo-sort.rs 7. -/
inductive Tool where
  | init | add | delete | build | clean | random | desc | topoSort | shortPath | csp | cycle
deriving DecidableEq, Repr

/-- `path` in all binaries but gc-init (e.g. command/src/bin/gc-add.rs 12-20). -/
def pathArg : Arg := (((arg "path").shortName 'p').defaultsTo ".").req true |>.value true

/-- command/src/bin/gc-init.rs 6-19. -/
def initApp : App := ⟨[(((arg "path").shortName 'p').defaultsTo ".").req false |>.value true], []⟩

/-- command/src/bin/gc-add.rs 8-85. -/
def addApp : App := ⟨[
  pathArg,
  ((((arg "vertex").shortName 'v').req false).many true).atLeast 1 |>.value true,
  (((arg "reverse").shortName 'r').req false).atMost 1 |>.value false,
  (((arg "edge").shortName 'e').req false).atLeast 2 |>.value true,
  (((arg "chain").shortName 'c').req false).atLeast 2 |>.value true,
  (((arg "cycle").shortName 'O').req false).atLeast 2 |>.value true,
  (((arg "star").shortName 'X').req false).atLeast 2 |>.value true,
  (((arg "clique").shortName 'C').req false).atLeast 2 |>.value true], []⟩

/-- command/src/bin/gc-delete.rs 8-40. -/
def deleteApp : App := ⟨[
  pathArg,
  ((((arg "vertex").shortName 'v').req false).many true).atLeast 1 |>.value true,
  (((arg "edge").shortName 'e').req false).atLeast 2 |>.value true], []⟩

/-- command/src/bin/gc-build.rs 6-29. `max_values(1)` after `takes_value(false)` makes `verbose` an option with a value. -/
def buildApp : App := ⟨[
  pathArg,
  ((((arg "verbose").shortName 'v').defaultsTo "false").req false |>.value false).atMost 1], []⟩

/-- command/src/bin/gc-clean.rs 7-38. -/
def cleanApp : App := ⟨[
  pathArg,
  (((arg "force").shortName 'f').req false).atMost 1 |>.value false,
  (((arg "silent").shortName 's').req false).atMost 1 |>.value false], []⟩

/-- command/src/bin/gc-random.rs 11-66. -/
def randomApp : App := ⟨[
  pathArg,
  ((arg "force").shortName 'f').req false |>.value false,
  ((arg "connected").shortName 'c').req false |>.value false,
  (((arg "cycle").shortName 'O').req false).atLeast 2 |>.value true,
  (((arg "vertex-count").shortName 'v').req true).defaultsTo "100" |>.value true,
  ((arg "edge-count").shortName 'e').req false |>.value true], []⟩

/-- command/src/bin/gc-desc.rs 7-20 and command/src/bin/gc-topo-sort.rs 8-21. -/
def pathApp : App := ⟨[pathArg], []⟩

/-- command/src/bin/gc-short-path.rs 23-40 and command/src/bin/gc-csp.rs 24-41. -/
def endpointArgs : List Arg := [
  (((arg "start").shortName 's').req true |>.value true).atMost 1,
  (((arg "end").shortName 'e').req true |>.value true).atMost 1]

/-- command/src/bin/gc-short-path.rs 10-41. -/
def shortPathApp : App := ⟨pathArg :: endpointArgs, []⟩

/-- command/src/bin/gc-csp.rs 11-134. -/
def cspApp : App := ⟨pathArg :: (endpointArgs ++ [
  (arg "include").req false |>.value true |>.atLeast 1,
  (arg "exclude").req false |>.value true |>.atLeast 1,
  (arg "ordered").req false |>.value true |>.atLeast 2,
  (arg "include-cycle").req false |>.value false,
  (arg "no-cycle").req false |>.value false,
  (arg "min-length").req false |>.value true |>.atLeast 1 |>.atMost 1,
  (arg "max-length").req false |>.value true |>.atLeast 1 |>.atMost 1,
  (arg "exact-length").req false |>.value true |>.atLeast 1 |>.atMost 1,
  (arg "min-score").req false |>.value true |>.atLeast 1 |>.atMost 1,
  (arg "max-score").req false |>.value true |>.atLeast 1 |>.atMost 1,
  (arg "exact-score").req false |>.value true |>.atLeast 1 |>.atMost 1]), []⟩

/-- command/src/bin/gc-cycle.rs 15-166. -/
def cycleApp : App := ⟨[
  pathArg,
  (arg "girth").req false |>.value false,
  (arg "hamiltonian").req false |>.value false,
  ((arg "count").shortName 'c').req false |>.value false,
  ((arg "head").shortName 'h').req false |>.value false,
  ((arg "take-n").shortName 'n').req false |>.value true,
  ((arg "all").shortName 'a').req false |>.value false,
  ((arg "shortest").shortName 's').req false |>.value false,
  ((arg "longest").shortName 'L').req false |>.value false,
  (arg "min-length").req false |>.value true,
  (arg "max-length").req false |>.value true,
  (arg "exact-length").req false |>.value true,
  (arg "min-score").req false |>.value true,
  (arg "max-score").req false |>.value true,
  (arg "exact-score").req false |>.value true,
  (arg "include-all").req false |>.value true,
  (arg "exclude-all").req false |>.value true,
  (arg "include-all-edges").req false |>.value true,
  (arg "exclude-all-edges").req false |>.value true],
  ["girth".toList, "hamiltonian".toList, "count".toList, "head".toList, "take-n".toList, "all".toList, "shortest".toList, "longest".toList]⟩

/-- The declared arguments of a binary. command/src/bin: gc-add.rs 8-85, gc-build.rs 6-29, gc-clean.rs 7-38, gc-csp.rs 11-134, gc-cycle.rs 15-166,
gc-delete.rs 8-40, gc-desc.rs 7-20, gc-init.rs 6-19, gc-random.rs 11-66, gc-short-path.rs 10-41, gc-topo-sort.rs 8-21. -/
def Tool.app : Tool → App
  | .init => initApp
  | .add => addApp
  | .delete => deleteApp
  | .build => buildApp
  | .clean => cleanApp
  | .random => randomApp
  | .desc => pathApp
  | .topoSort => pathApp
  | .shortPath => shortPathApp
  | .csp => cspApp
  | .cycle => cycleApp

/-- What a command line of a binary asks for. What the lines after `get_matches` take from the arguments: command/src/bin/gc-add.rs 87-128,
gc-build.rs 31-32, gc-clean.rs 40-42, gc-csp.rs 136-198, gc-cycle.rs 168-225, gc-delete.rs 42-53, gc-desc.rs 22, gc-init.rs 22, gc-random.rs 68-75,
gc-short-path.rs 43-54, gc-topo-sort.rs 23. -/
inductive Invocation where
  | init (path : Text)
  | add (path : Text) (a : AddArgs)
  | delete (path : Text) (vertex edge : Option (List Text))
  | build (path : Text) (verbose : Bool)
  | clean (path : Text) (force silent : Bool)
  | random (path : Text) (force connected : Bool) (cycle : Option (List Text)) (vertexCount : Text) (edgeCount : Option Text)
  | query (path : Text) (q : Stream.Query)

/-- command/src/bin/gc-add.rs 88-128: the options, as far as clap is concerned. -/
def addArgs (m : Matches) : AddArgs where
  vertex := m.values "vertex"
  reverse := m.present "reverse"
  edge := m.values "edge"
  chain := m.values "chain"
  cycle := m.values "cycle"
  star := m.values "star"
  clique := m.values "clique"

/-- command/src/bin/gc-csp.rs 149-198. -/
def cspArgs (m : Matches) : CspArgs where
  include_ := m.values "include"
  exclude := m.values "exclude"
  ordered := m.values "ordered"
  includeCycle := m.present "include-cycle"
  noCycle := m.present "no-cycle"
  minLength := m.value "min-length"
  maxLength := m.value "max-length"
  exactLength := m.value "exact-length"
  minScore := m.value "min-score"
  maxScore := m.value "max-score"
  exactScore := m.value "exact-score"

/-- command/src/bin/gc-cycle.rs 172-184. -/
def cycleActions (m : Matches) : GcCycle.Actions where
  girth := m.present "girth"
  hamiltonian := m.present "hamiltonian"
  count := m.present "count"
  head := m.present "head"
  takeN := m.value "take-n"
  all := m.present "all"
  shortest := m.present "shortest"
  longest := m.present "longest"

/-- command/src/bin/gc-cycle.rs 186-225. -/
def cycleArgs (m : Matches) : CycleArgs where
  includeAll := m.values "include-all"
  excludeAll := m.values "exclude-all"
  includeAllEdges := m.values "include-all-edges"
  excludeAllEdges := m.values "exclude-all-edges"
  minLength := m.value "min-length"
  maxLength := m.value "max-length"
  exactLength := m.value "exact-length"
  minScore := m.value "min-score"
  maxScore := m.value "max-score"
  exactScore := m.value "exact-score"

/-- The first lines of the `main` functions after `get_matches` (gc-init.rs 22, gc-add.rs 87, gc-delete.rs 42, gc-build.rs 31-32, gc-clean.rs
40-42, gc-random.rs 68-75, gc-desc.rs 22, gc-topo-sort.rs 23, gc-short-path.rs 43-53, gc-csp.rs 136-147, gc-cycle.rs 168 in
command/src/bin). `none`: an `unwrap` panics because there is no value. In gc-init a missing value is replaced by `.`. The options `connected`
and `cycle` of gc-random are read here, but not used (see `Random.main`). -/
def read (t : Tool) (m : Matches) : Option Invocation :=
  match t with
  | .init => some (.init ((m.value "path").getD ".".toList))
  | .add => (m.value "path").map fun path => .add path (addArgs m)
  | .delete => (m.value "path").map fun path => .delete path (m.values "vertex") (m.values "edge")
  | .build => (m.value "path").map fun path => .build path (m.present "verbose")
  | .clean => (m.value "path").map fun path => .clean path (m.present "force") (m.present "silent")
  | .random => (m.value "path").bind fun path => (m.value "vertex-count").map fun vertexCount =>
    .random path (m.present "force") (m.present "connected") (m.values "cycle") vertexCount (m.value "edge-count")
  | .desc => (m.value "path").map fun path => .query path (.desc path)
  | .topoSort => (m.value "path").map fun path => .query path .topoSort
  | .shortPath => (m.value "path").bind fun path => (m.value "start").bind fun s => (m.value "end").map fun e => .query path (.shortPath s e)
  | .csp =>
    (m.value "path").bind fun path => (m.value "start").bind fun s => (m.value "end").map fun e => .query path (.csp s e (cspArgs m))
  | .cycle => (m.value "path").map fun path => .query path (.cycle (cycleActions m) (cycleArgs m))

/-- A command line: refused or answered by clap, or an invocation (`none`: a panic). The first part of every `main`, e.g. command/src/bin/gc-add.rs
8-88. -/
def commandLine (t : Tool) (args : List Text) : Except Stop (Option Invocation) :=
  match parse t.app args with
  | .error e => .error e
  | .ok m => .ok (read t m)

/-- A line typed in a shell, and what its run meets: the iteration order of the hash map when a graph is saved, the graph that gc-random
generates, and the answer at the prompt. Not in /repo; the binaries that are run are those of command/src/bin, each `main`, e.g. gc-add.rs 7-129. -/
structure Typed where
  tool : Tool
  words : List Text
  order : DirectedGraph → DirectedGraph
  generated : DirectedGraph
  answer : Text

/-- The change of the stored graph that is asked for, and the directory; `none` for the query commands, which only read, and if gc-random
panics on its numbers. The rest of `main`: command/src/bin/gc-add.rs 90-128, gc-build.rs 33-43, gc-clean.rs 44-61, gc-delete.rs 44-53, gc-init.rs
23, gc-random.rs 78-107. -/
def Invocation.change (i : Invocation) (l : Typed) : Option (Text × Cmd) :=
  match i with
  | .init path => some (path, .init)
  | .add path a => some (path, .add a)
  | .delete path vertex edge => some (path, .delete vertex edge)
  | .build path _ => some (path, .build l.order)
  | .clean path force _ => some (path, .clean force l.answer)
  | .random path force _ _ vertexCount edgeCount =>
    match Random.sizes vertexCount edgeCount with
    | .done _ => some (path, .random l.generated l.order force l.answer)
    | _ => none
  | .query _ _ => none

/-- The files after a typed line: clap ends the process before anything is done, or the invocation is run. `dir` is the directory that a
path stands for. All of `main`, e.g. command/src/bin/gc-add.rs 7-129. -/
def runLine (nd : Char → Bool) (dir : Text → FPath) (l : Typed) (fs : FS) : FS :=
  match commandLine l.tool l.words with
  | .ok (some i) =>
    match i.change l with
    | some (path, cmd) => (exec nd (dir path) cmd fs).1
    | none => fs
  | _ => fs

/-- The files after some typed lines. Not a function of the code: this is the user's shell. Not in /repo; the binaries that are run are those of
command/src/bin, each `main`, e.g. gc-add.rs 7-129. -/
def shell (nd : Char → Bool) (dir : Text → FPath) : List Typed → FS → FS
  | [], fs => fs
  | l :: ls, fs => shell nd dir ls (runLine nd dir l fs)

end Cli
end GC
