/-
All commands that touch the stored graph as processes on one directory, including gc-clean and gc-random, which remove the command file while
other processes may have it open. An open file is an inode: it outlives its name, so what a process reads from or writes to a removed
command file does not touch a command file created later.

Same simplifications as `Verif/Model/Concurrent.lean`, except that an open command file is identified by its inode. One step is one system
call (`create_dir_all` counts as one, and so do the calls by which `remove_dir_all` lists a directory, and those by which it removes the
entries of `.graph` other than the command file).
-/
import Verif.Model.Concurrent
namespace GC
namespace Unlink
open Store Text Concurrent

/-- The files, and the inodes of the command file. The inodes are numbered: `gen` of them were removed, their contents are in `orphan`;
the number `gen` belongs to the file that is now, or will be next, at the path of the command file. Processes of command/src/graph_utils.rs 53-62,
135-168, core/src/format/gcmd.rs 79-91, 95-103, command/src/bin/gc-build.rs 31-43, gc-clean.rs 55, gc-random.rs 93-104. -/
structure World where
  fs : FS
  gen : Nat
  orphan : Nat → Text

/-- What a process does. Processes of command/src/graph_utils.rs 53-62, 135-168, core/src/format/gcmd.rs 79-91, 95-103, command/src/bin/gc-build.rs
31-43, gc-clean.rs 55, gc-random.rs 93-104. -/
inductive Job where
  /-- `apply_graph_commands` with these commands -/
  | add (cs : List GraphCommand)
  /-- gc-build -/
  | build
  /-- `load_graph`, the first thing a query does -/
  | query
  /-- gc-init -/
  | init
  /-- `clean`, which gc-clean calls after the confirmation -/
  | clean
  /-- gc-random after the confirmation, with the graph it generated -/
  | random (g : DirectedGraph)

/-- Where a process is. A number `h` is the inode of the open command file. Processes of command/src/graph_utils.rs 53-62, 135-168,
core/src/format/gcmd.rs 79-91, 95-103, command/src/bin/gc-build.rs 31-43, gc-clean.rs 55, gc-random.rs 93-104. -/
inductive Pc where
  /-- nothing done yet -/
  | start
  /-- add, init, clean, random: `create_dir_all` of `touch` done (graph_utils.rs 136-138) -/
  | dirs
  /-- add, clean, random: `lock` returned `Ok`, the block begins (graph_utils.rs 47) -/
  | locked
  /-- add: the command file is open, these `write` calls are left (gcmd.rs 96-101) -/
  | writing (h : Nat) (rest : List Text)
  /-- clean, random: `remove_dir_all` has listed the directory; is the command file still to be removed? -/
  | listed (todo : Bool)
  /-- clean, random: all listed entries are removed -/
  | emptied
  /-- add, clean, random: the block returned, with this success (graph_utils.rs 48) -/
  | unlocking (ok : Bool)
  /-- random: `clean` returned `Ok`, `init` begins (gc-random.rs 97) -/
  | initialising
  /-- random: `create_dir_all` of `init` done -/
  | initDirs
  /-- build, query: the command file is open for reading (graph_utils.rs 54-55) -/
  | reading (h : Nat) (r : Reader)
  /-- query: `load_graph` returned this -/
  | answered (res : Run (Except LoadError DirectedGraph))
  /-- build, random: the graph to be saved is there, in the iteration order of its hash map (gc-build.rs 34, gc-random.rs 101) -/
  | loaded (g : DirectedGraph)
  /-- build, random: the command file is open at this offset, these `write` calls are left (gcmd.rs 80-89) -/
  | rewriting (h : Nat) (offset : Nat) (rest : List Text)
  /-- the operation returned: success or error -/
  | finished (ok : Bool)

/-- Content of an open command file. Operating system; read at core/src/format/utils.rs 39-41. -/
def World.content (root : FPath) (w : World) (h : Nat) : Option Text :=
  if h = w.gen then
    match w.fs (commandPath root) with
    | some (.file c) => some c
    | _ => none
  else some (w.orphan h)

/-- One `write` on a command file opened for appending: the text is added at the current end of the file. Operating system, through
core/src/format/gcmd.rs 97-102. -/
def World.append (root : FPath) (w : World) (h : Nat) (text : Text) : World :=
  if h = w.gen then { w with fs := appendText (commandPath root) text w.fs }
  else { w with orphan := fun k => if k = h then w.orphan h ++ text else w.orphan k }

/-- One `write` on an open command file at an offset; a gap is filled with NUL. Operating system, through core/src/format/gcmd.rs 81-91. -/
def World.writeAt (root : FPath) (w : World) (h offset : Nat) (text : Text) : World :=
  if h = w.gen then { w with fs := Concurrent.writeAt (commandPath root) offset text w.fs }
  else { w with orphan := fun k =>
    if k = h then
      (w.orphan h).take offset ++ List.replicate (offset - (w.orphan h).length) (Char.ofNat 0) ++ text ++ (w.orphan h).drop (offset + text.length)
    else w.orphan k }

/-- `unlink` of the command file, if it is a regular file. If there is a directory with this name it is removed with its contents (in one
step). Operating system, through command/src/graph_utils.rs 79. -/
def World.unlink (root : FPath) (w : World) : Option World :=
  match w.fs (commandPath root) with
  | some (.file c) =>
    some ⟨w.fs.set (commandPath root) none, w.gen + 1, fun k => if k = w.gen then c else w.orphan k⟩
  | some .dir => some { w with fs := fun q => if (commandPath root).isPrefixOf q then none else w.fs q }
  | none => none

/-- The entries of `.graph` other than the command file are removed. Operating system, through command/src/graph_utils.rs 79. -/
def World.removeOthers (root : FPath) (w : World) : World :=
  { w with fs := fun q =>
      if (rootPath root).isPrefixOf q ∧ q ≠ rootPath root ∧ ¬ (commandPath root).isPrefixOf q then none else w.fs q }

/-- The part of `clean` (command/src/graph_utils.rs 77-81) inside the lock: std `fs::remove_dir_all`, which lists the directory, removes what
it listed (an entry that is gone in the meantime is an error), and then the directory (an error if it is not empty). -/
def stepRemove (root : FPath) (pc : Pc) (w : World) : World × Pc :=
  match pc with
  | .locked =>
    match w.fs (rootPath root) with
    | some .dir => (w, .listed (w.fs (commandPath root)).isSome)
    | _ => (w, .unlocking false)
  | .listed true =>
    match w.unlink root with
    | some w => (w, .listed false)
    | none => (w, .unlocking false)
  | .listed false => (w.removeOthers root, .emptied)
  | .emptied =>
    match w.fs (rootPath root), w.fs (commandPath root) with
    | some .dir, none => ({ w with fs := w.fs.set (rootPath root) none }, .unlocking true)
    | _, _ => (w, .unlocking false)
  | pc => (w, pc)

/-- `lock` (command/src/graph_utils.rs 28-30 with 135-143). -/
def stepLock (root : FPath) (pc : Pc) (w : World) : World × Pc :=
  match pc with
  | .start => ({ w with fs := (createDirAll root w.fs).1 }, .dirs)
  | .dirs =>
    match openCreate (lockPath root) w.fs with
    | (fs, .ok ()) => ({ w with fs := fs }, .locked)
    | (fs, .error _) => ({ w with fs := fs }, .finished false)
  | pc => (w, pc)

/-- `unlock` (command/src/graph_utils.rs 33-35, 48-49), and how the process goes on after success. -/
def stepUnlock (root : FPath) (ok : Bool) (next : Pc) (w : World) : World × Pc :=
  match unlock root w.fs with
  | (fs, .ok ()) => ({ w with fs := fs }, if ok then next else .finished false)
  | (fs, .error _) => ({ w with fs := fs }, .finished false)

/-- Next step of `apply_graph_commands` (command/src/graph_utils.rs 163-168 with 42-50, 135-143 and core/src/format/gcmd.rs 95-103). -/
def stepAdd (root : FPath) (cs : List GraphCommand) (pc : Pc) (w : World) : World × Pc :=
  match pc with
  | .start => stepLock root .start w
  | .dirs => stepLock root .dirs w
  | .locked =>
    match openAppend (commandPath root) w.fs with
    | (_, .ok ()) => (w, .writing w.gen (addWrites cs))
    | (_, .error _) => (w, .unlocking false)
  | .writing _ [] => (w, .unlocking true)
  | .writing h (t :: rest) => (w.append root h t, .writing h rest)
  | .unlocking ok => stepUnlock root ok (.finished true) w
  | pc => (w, pc)

/-- Next step of `clean` (command/src/graph_utils.rs 77-81). -/
def stepClean (root : FPath) (pc : Pc) (w : World) : World × Pc :=
  match pc with
  | .start => stepLock root .start w
  | .dirs => stepLock root .dirs w
  | .unlocking ok => stepUnlock root ok (.finished true) w
  | pc => stepRemove root pc w

/-- First step of `load_graph` (command/src/graph_utils.rs 54-55): `File::open`. It succeeds on a directory, and reading that panics. -/
def stepOpen (root : FPath) (w : World) : LoadStep := Concurrent.stepOpen root w.fs

/-- Next step of `load_graph` (command/src/graph_utils.rs 56-61 with core/src/format/utils.rs 39-50): one `read`; see `Concurrent.stepRead`. -/
def stepRead (nd : Char → Bool) (root : FPath) (h : Nat) (r : Reader) (w : World) : LoadStep :=
  match w.content root h with
  | some c =>
    let chunk := readChunk c r.offset
    if chunk ≠ [] then .more { r with current := r.current ++ chunk, offset := r.offset + chunk.length }
    else if r.current = [] ∨ r.current.getLast? = some '\n' then .returned (loadLines nd r.lines)
    else .more { r with closed := r.closed ++ [r.current], current := [] }
  | none => .returned .panicked

/-- Next step of a query, until its graph is loaded. command/src/graph_utils.rs 53-62 with core/src/format/utils.rs 30-51. -/
def stepQuery (nd : Char → Bool) (root : FPath) (pc : Pc) (w : World) : World × Pc :=
  let go (h : Nat) (l : LoadStep) : World × Pc :=
    match l with
    | .more r => (w, .reading h r)
    | .returned res => (w, .answered res)
  match pc with
  | .start => go w.gen (stepOpen root w)
  | .reading h r => go h (stepRead nd root h r w)
  | pc => (w, pc)

/-- Saving a graph (core/src/format/gcmd.rs 79-91): `File::create`, then the `write` calls. -/
def stepSave (root : FPath) (pc : Pc) (w : World) : World × Pc :=
  match pc with
  | .loaded g =>
    match createTruncate (commandPath root) w.fs with
    | (fs, .ok ()) => ({ w with fs := fs }, .rewriting w.gen 0 (saveWrites g))
    | (fs, .error _) => ({ w with fs := fs }, .finished false)
  | .rewriting _ _ [] => (w, .finished true)
  | .rewriting h offset (t :: rest) => (w.writeAt root h offset t, .rewriting h (offset + t.length) rest)
  | pc => (w, pc)

/-- Next step of gc-build (command/src/bin/gc-build.rs 34-41 with core/src/format/gcmd.rs 79-91); no lock is taken. -/
def stepBuild (nd : Char → Bool) (order : DirectedGraph → DirectedGraph) (root : FPath) (pc : Pc) (w : World) : World × Pc :=
  let go (h : Nat) (l : LoadStep) : World × Pc :=
    match l with
    | .more r => (w, .reading h r)
    | .returned (.done (.ok g)) => (w, .loaded (order g))
    | .returned _ => (w, .finished false)
  match pc with
  | .start => go w.gen (stepOpen root w)
  | .reading h r => go h (stepRead nd root h r w)
  | pc => stepSave root pc w

/-- `create_dir_all` of `touch` on the command file (command/src/graph_utils.rs 22-24 and 135-138). -/
def initDir (root : FPath) (w : World) : World := { w with fs := (createDirAll (rootPath root) w.fs).1 }

/-- Creation of the command file by `touch` (command/src/graph_utils.rs 139-142), and how the process goes on after success. -/
def initFile (root : FPath) (next : Pc) (w : World) : World × Pc :=
  match openCreate (commandPath root) w.fs with
  | (fs, .ok ()) => ({ w with fs := fs }, next)
  | (fs, .error _) => ({ w with fs := fs }, .finished false)

/-- Next step of gc-init (command/src/bin/gc-init.rs 22-23 with command/src/graph_utils.rs 22-24 and 135-143). -/
def stepInit (root : FPath) (pc : Pc) (w : World) : World × Pc :=
  match pc with
  | .start => (initDir root w, .dirs)
  | .dirs => initFile root (.finished true) w
  | pc => (w, pc)

/-- Next step of gc-random after the confirmation (command/src/bin/gc-random.rs 93-104): `clean`, `init`, `save_graph_as_commands`. -/
def stepRandom (root : FPath) (g : DirectedGraph) (pc : Pc) (w : World) : World × Pc :=
  match pc with
  | .unlocking ok => stepUnlock root ok .initialising w
  | .initialising => (initDir root w, .initDirs)
  | .initDirs => initFile root (.loaded g) w
  | .loaded g => stepSave root (.loaded g) w
  | .rewriting h offset rest => stepSave root (.rewriting h offset rest) w
  | pc => stepClean root pc w

/-- Next step of a process. Processes of command/src/graph_utils.rs 53-62, 135-168, core/src/format/gcmd.rs 79-91, 95-103,
command/src/bin/gc-build.rs 31-43, gc-clean.rs 55, gc-random.rs 93-104. -/
def stepJob (nd : Char → Bool) (order : DirectedGraph → DirectedGraph) (root : FPath) (job : Job) (pc : Pc) (w : World) : World × Pc :=
  match job with
  | .add cs => stepAdd root cs pc w
  | .build => stepBuild nd order root pc w
  | .query => stepQuery nd root pc w
  | .init => stepInit root pc w
  | .clean => stepClean root pc w
  | .random g => stepRandom root (order g) pc w

/-- The files, and where each process is. Not in /repo, a scheduler for processes of command/src/graph_utils.rs, lines 22-168. -/
structure Sys where
  world : World
  pc : Nat → Pc

/-- Process `i` makes a step. Its hash maps have their own iteration order (`order i`). Not in /repo, a scheduler for processes of
command/src/graph_utils.rs, lines 22-168. -/
def step (nd : Char → Bool) (order : Nat → DirectedGraph → DirectedGraph) (root : FPath) (jobs : List Job) (s : Sys) (i : Nat) : Sys :=
  match jobs[i]? with
  | none => s
  | some job =>
    match stepJob nd (order i) root job (s.pc i) s.world with
    | (w, pc) => ⟨w, fun j => if j = i then pc else s.pc j⟩

/-- The processes run in the order given by the schedule, beginning with these files. Not in /repo, a scheduler for processes of
command/src/graph_utils.rs, lines 22-168. -/
def run (nd : Char → Bool) (order : Nat → DirectedGraph → DirectedGraph) (root : FPath) (jobs : List Job) (schedule : List Nat) (fs : FS) : Sys :=
  schedule.foldl (step nd order root jobs) ⟨⟨fs, 0, fun _ => []⟩, fun _ => .start⟩

end Unlink
end GC
