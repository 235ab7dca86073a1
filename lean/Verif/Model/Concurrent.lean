/-
Several processes of graph-commands on one directory: small-step model of `apply_graph_commands` (command/src/graph_utils.rs 163-168,
used by gc-add and gc-delete), of gc-build, and of `load_graph` (command/src/graph_utils.rs 53-62, with which every query begins: gc-desc,
gc-cycle, gc-topo-sort, gc-short-path, gc-csp), interleaved at the level of system calls.

Simplifications: one step is one system call (`create_dir_all` counts as one); every `read` and `write` is complete and atomic; on a
file opened for appending a `write` goes to the current end of the file (`O_APPEND`); files are ASCII, so bytes are characters; an open
file is identified by its path (no process removes the command file here: gc-clean and gc-random are not among the processes); a reader
goes on to the end of the file when a line cannot be parsed (the code returns at once; the answer is the same).
-/
import Verif.Model.Store
namespace GC
namespace Concurrent
open Store Text

/-- std `BufWriter`: capacity of the buffer in bytes. All texts written are ASCII, so bytes are characters. std, used at core/src/format/gcmd.rs
81-91 and 97-102. -/
def bufCapacity : Nat := 8192

/-- State of a `BufWriter`: the `write` calls made so far, and the buffer. std, used at core/src/format/gcmd.rs 81-91 and 97-102. -/
structure BufWriter where
  writes : List Text
  buffer : Text

/-- std `BufWriter::flush_buf` (also called on drop). std, used at core/src/format/gcmd.rs 81-91 and 97-102. -/
def BufWriter.flush (w : BufWriter) : BufWriter := if w.buffer = [] then w else ⟨w.writes ++ [w.buffer], []⟩

/-- std `BufWriter::write_all`: flush if the text does not fit; a text as large as the buffer is written directly. std, used at
core/src/format/gcmd.rs 81-91 and 97-102. -/
def BufWriter.write (w : BufWriter) (text : Text) : BufWriter :=
  let w := if w.buffer.length + text.length > bufCapacity then w.flush else w
  if text.length ≥ bufCapacity then ⟨w.writes ++ [text], w.buffer⟩ else ⟨w.writes, w.buffer ++ text⟩

/-- The `write` calls made when these pieces of text go through a new `BufWriter`, which is dropped at the end. std, used at
core/src/format/gcmd.rs 81-91 and 97-102. -/
def bufferedWrites (pieces : List Text) : List Text := (pieces.foldl BufWriter.write ⟨[], []⟩).flush.writes

/-- core/src/format/gcmd.rs 97-101: the `write` calls of `add_commands`. `writeln!` writes the line and the line feed separately. -/
def addWrites (cs : List GraphCommand) : List Text := bufferedWrites (cs.flatMap fun c => [Format.Gcmd.commandIntoLine c, ['\n']])

/-- core/src/format/gcmd.rs 81-89: the `write` calls of `save`. `writeln!` writes each literal part and each argument separately. -/
def saveWrites (g : DirectedGraph) : List Text :=
  bufferedWrites ((g.vertices.flatMap fun v => [Format.Gcmd.kwAddVertex, showId v, ['\n']]) ++
    (g.edges.flatMap fun e => [Format.Gcmd.kwAddEdge, showId e.src, [' '], showId e.dst, ['\n']]))

/-- std `BufReader` and `BufRead::lines` on the command file (core/src/format/utils.rs 39-41). -/
structure Reader where
  /-- texts after which the end of the file was met in the middle of a line; the line was then taken as complete -/
  closed : List Text
  /-- the text read since then -/
  current : Text
  /-- position in the file -/
  offset : Nat

/-- The lines a reader made of what it read. std, used at core/src/format/utils.rs 39-41. -/
def Reader.lines (r : Reader) : List Text := r.closed.flatMap Text.lines ++ Text.lines r.current

/-- One `read` into the buffer of a `BufReader` (8192 bytes) from a file with this content. std, used at core/src/format/utils.rs 39-41. -/
def readChunk (content : Text) (offset : Nat) : Text := (content.drop offset).take bufCapacity

/-- core/src/format/utils.rs 41-50 and 20-26 for lines that were read in some way; see `Store.loadGraph`. -/
def loadLines (nd : Char → Bool) (lines : List Text) : Run (Except LoadError DirectedGraph) :=
  (Format.readLoop (Format.Gcmd.parseLine nd) 0 lines []).bind fun r =>
    match r with
    | .ok cs => .done (.ok (GraphCommand.applyCommands cs .new))
    | .error e => .done (.error (.parse e))

/-- What a process does. Processes of command/src/graph_utils.rs 53-62, 135-168, core/src/format/gcmd.rs 79-91, 95-103, command/src/bin/gc-build.rs
31-43. -/
inductive Job where
  /-- `apply_graph_commands` with these commands -/
  | add (cs : List GraphCommand)
  /-- gc-build -/
  | build
  /-- `load_graph`, the first thing a query does -/
  | query
  /-- gc-init -/
  | init

/-- Where a process is. Processes of command/src/graph_utils.rs 53-62, 135-168, core/src/format/gcmd.rs 79-91, 95-103, command/src/bin/gc-build.rs
31-43. -/
inductive Pc where
  /-- nothing done yet -/
  | start
  /-- add, init: `create_dir_all` of `touch` done (graph_utils.rs 136-138) -/
  | dirs
  /-- add: `lock` returned `Ok`, the block begins (graph_utils.rs 47) -/
  | locked
  /-- add: the command file is open, these `write` calls are left (gcmd.rs 96-101) -/
  | writing (rest : List Text)
  /-- add: the block returned (graph_utils.rs 48) -/
  | unlocking (res : Except IoError Unit)
  /-- build, query: the command file is open for reading (graph_utils.rs 54-55) -/
  | reading (r : Reader)
  /-- query: `load_graph` returned this -/
  | answered (res : Run (Except LoadError DirectedGraph))
  /-- build: the graph is loaded, in the iteration order of its hash map (gc-build.rs 34) -/
  | loaded (g : DirectedGraph)
  /-- build: the command file is open at this offset, these `write` calls are left (gcmd.rs 80-89) -/
  | rewriting (offset : Nat) (rest : List Text)
  /-- the operation returned: success or error -/
  | finished (ok : Bool)

/-- One `write` on a file at an offset; a gap is filled with NUL. Operating system; the writes are those of core/src/format/gcmd.rs 81-91. -/
def writeAt (p : FPath) (offset : Nat) (text : Text) (fs : FS) : FS :=
  match fs p with
  | some (.file c) =>
    fs.set p (some (.file (c.take offset ++ List.replicate (offset - c.length) (Char.ofNat 0) ++ text ++ c.drop (offset + text.length))))
  | _ => fs

/-- Next step of `apply_graph_commands` (command/src/graph_utils.rs 163-168 with 42-50, 135-143 and core/src/format/gcmd.rs 95-103). -/
def stepAdd (root : FPath) (cs : List GraphCommand) (pc : Pc) (fs : FS) : FS × Pc :=
  match pc with
  | .start => ((createDirAll root fs).1, .dirs)
  | .dirs =>
    match openCreate (lockPath root) fs with
    | (fs, .ok ()) => (fs, .locked)
    | (fs, .error _) => (fs, .finished false)
  | .locked =>
    match openAppend (commandPath root) fs with
    | (fs, .ok ()) => (fs, .writing (addWrites cs))
    | (fs, .error e) => (fs, .unlocking (.error e))
  | .writing [] => (fs, .unlocking (.ok ()))
  | .writing (t :: rest) => (appendText (commandPath root) t fs, .writing rest)
  | .unlocking res =>
    match unlock root fs, res with
    | (fs, .ok ()), .ok () => (fs, .finished true)
    | (fs, _), _ => (fs, .finished false)
  | pc => (fs, pc)

/-- Where `load_graph` is after its next step: still reading, or returned. command/src/graph_utils.rs 53-62 with core/src/format/utils.rs 30-51. -/
inductive LoadStep where
  | more (r : Reader)
  | returned (res : Run (Except LoadError DirectedGraph))

/-- First step of `load_graph` (command/src/graph_utils.rs 54-55): `File::open`. It succeeds on a directory, and reading that panics. -/
def stepOpen (root : FPath) (fs : FS) : LoadStep :=
  match fs (commandPath root) with
  | none => .returned (.done (.error (.io .notFound)))
  | some .dir => .returned .panicked
  | some (.file _) => .more ⟨[], [], 0⟩

/-- Next step of `load_graph` (command/src/graph_utils.rs 56-61 with core/src/format/utils.rs 39-50): one `read`. At the end of the file
(`read` returns nothing) the lines are complete, except that a line without line feed is handed out first, and `read` is called again. -/
def stepRead (nd : Char → Bool) (root : FPath) (r : Reader) (fs : FS) : LoadStep :=
  match fs (commandPath root) with
  | some (.file c) =>
    let chunk := readChunk c r.offset
    if chunk ≠ [] then .more { r with current := r.current ++ chunk, offset := r.offset + chunk.length }
    else if r.current = [] ∨ r.current.getLast? = some '\n' then .returned (loadLines nd r.lines)
    else .more { r with closed := r.closed ++ [r.current], current := [] }
  | _ => .returned .panicked

/-- Next step of a query, until its graph is loaded. command/src/graph_utils.rs 53-62 with core/src/format/utils.rs 30-51. -/
def stepQuery (nd : Char → Bool) (root : FPath) (pc : Pc) (fs : FS) : FS × Pc :=
  let go (l : LoadStep) : FS × Pc :=
    match l with
    | .more r => (fs, .reading r)
    | .returned res => (fs, .answered res)
  match pc with
  | .start => go (stepOpen root fs)
  | .reading r => go (stepRead nd root r fs)
  | pc => (fs, pc)

/-- Next step of gc-build (command/src/bin/gc-build.rs 34-41 with core/src/format/gcmd.rs 79-91); no lock is taken. -/
def stepBuild (nd : Char → Bool) (order : DirectedGraph → DirectedGraph) (root : FPath) (pc : Pc) (fs : FS) : FS × Pc :=
  let go (l : LoadStep) : FS × Pc :=
    match l with
    | .more r => (fs, .reading r)
    | .returned (.done (.ok g)) => (fs, .loaded (order g))
    | .returned _ => (fs, .finished false)
  match pc with
  | .start => go (stepOpen root fs)
  | .reading r => go (stepRead nd root r fs)
  | .loaded g =>
    match createTruncate (commandPath root) fs with
    | (fs, .ok ()) => (fs, .rewriting 0 (saveWrites g))
    | (fs, .error _) => (fs, .finished false)
  | .rewriting _ [] => (fs, .finished true)
  | .rewriting offset (t :: rest) => (writeAt (commandPath root) offset t fs, .rewriting (offset + t.length) rest)
  | pc => (fs, pc)

/-- Next step of gc-init (command/src/bin/gc-init.rs 22-23 with command/src/graph_utils.rs 22-24 and 135-143). As in `stepAdd`, the `mkdir`
calls of `create_dir_all` are one step. -/
def stepInit (root : FPath) (pc : Pc) (fs : FS) : FS × Pc :=
  match pc with
  | .start => ((createDirAll (rootPath root) fs).1, .dirs)
  | .dirs =>
    match openCreate (commandPath root) fs with
    | (fs, .ok ()) => (fs, .finished true)
    | (fs, .error _) => (fs, .finished false)
  | pc => (fs, pc)

/-- Next step of a process. command/src/graph_utils.rs 53-62, 135-168, core/src/format/gcmd.rs 79-91, 95-103, command/src/bin/gc-build.rs 31-43. -/
def stepJob (nd : Char → Bool) (order : DirectedGraph → DirectedGraph) (root : FPath) (job : Job) (pc : Pc) (fs : FS) : FS × Pc :=
  match job with
  | .add cs => stepAdd root cs pc fs
  | .build => stepBuild nd order root pc fs
  | .query => stepQuery nd root pc fs
  | .init => stepInit root pc fs

/-- The files, and where each process is. Not in /repo: several processes of command/src/graph_utils.rs, lines 22-168. -/
structure Sys where
  fs : FS
  pc : Nat → Pc

/-- Process `i` makes a step. Its hash maps have their own iteration order (`order i`). Not in /repo, a scheduler for processes of
command/src/graph_utils.rs, lines 22-168. -/
def step (nd : Char → Bool) (order : Nat → DirectedGraph → DirectedGraph) (root : FPath) (jobs : List Job) (s : Sys) (i : Nat) : Sys :=
  match jobs[i]? with
  | none => s
  | some job =>
    match stepJob nd (order i) root job (s.pc i) s.fs with
    | (fs, pc) => ⟨fs, fun j => if j = i then pc else s.pc j⟩

/-- The processes run in the order given by the schedule. A process that crashes is one that is not scheduled any more. Not in /repo, a scheduler
for processes of command/src/graph_utils.rs, lines 22-168. -/
def run (nd : Char → Bool) (order : Nat → DirectedGraph → DirectedGraph) (root : FPath) (jobs : List Job) (schedule : List Nat) (fs : FS) : Sys :=
  schedule.foldl (step nd order root jobs) ⟨fs, fun _ => .start⟩

end Concurrent
end GC
