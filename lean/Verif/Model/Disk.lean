/-
`add_commands`, `save` and the programs that use them (gc-add, gc-delete, gc-build) on a disk that can be full: every `write` stores as many
bytes as there is room for.

The `BufWriter` of core/src/format/gcmd.rs is dropped at the end of the function without a call of `flush`: an error while its last buffer is
written is lost. Simplifications: only file contents take room (creating directories, the lock file and directory entries does not fail);
texts are ASCII, so bytes are characters; one process at a time.
-/
import Verif.Model.Concurrent
namespace GC
namespace Disk
open Store Text Concurrent

/-- A `BufWriter` on a file: the content of the file, the free bytes on the disk, the buffer. std, used at core/src/format/gcmd.rs 81-91 and
97-102. -/
structure Writer where
  content : Text
  free : Nat
  buffer : Text

/-- std `File::write_all`: stores what fits; an error if that is not everything. std, used at core/src/format/gcmd.rs 81-91 and 97-102. -/
def Writer.writeOut (w : Writer) (text : Text) : Writer × Bool :=
  ({ w with content := w.content ++ text.take w.free, free := w.free - text.length }, decide (text.length ≤ w.free))

/-- std `BufWriter::flush_buf`: what was written leaves the buffer, also in case of an error. std, used at core/src/format/gcmd.rs 81-91 and
97-102. -/
def Writer.flushBuf (w : Writer) : Writer × Bool :=
  (⟨w.content ++ w.buffer.take w.free, w.free - w.buffer.length, w.buffer.drop w.free⟩, decide (w.buffer.length ≤ w.free))

/-- std `BufWriter::write_all`: flush if the text does not fit; a text as large as the buffer is written directly. std, used at
core/src/format/gcmd.rs 81-91 and 97-102. -/
def Writer.writeAll (w : Writer) (text : Text) : Writer × Bool :=
  match (if w.buffer.length + text.length > bufCapacity then w.flushBuf else (w, true)) with
  | (w, false) => (w, false)
  | (w, true) => if text.length ≥ bufCapacity then w.writeOut text else ({ w with buffer := w.buffer ++ text }, true)

/-- The pieces of several `writeln!(buffered, ..)?`, up to the first error. std, used at core/src/format/gcmd.rs 81-91 and 97-102. -/
def Writer.writePieces : List Text → Writer → Writer × Bool
  | [], w => (w, true)
  | t :: ts, w =>
    match w.writeAll t with
    | (w, false) => (w, false)
    | (w, true) => writePieces ts w

/-- core/src/format/gcmd.rs 81-90 and 97-102: a `BufWriter` is made, the pieces are written, and the `BufWriter` is dropped, which writes its
buffer and ignores errors. The new content of the file, the free bytes, and whether the function returns `Ok`. -/
def writeBuffered (pieces : List Text) (content : Text) (free : Nat) : Text × Nat × Bool :=
  match Writer.writePieces pieces ⟨content, free, []⟩ with
  | (w, ok) => (w.flushBuf.1.content, w.flushBuf.1.free, ok)

/-- `writeBuffered` on the open file at a path. core/src/format/gcmd.rs 81-91 and 97-102. -/
def writeFile (p : FPath) (pieces : List Text) (fs : FS) (free : Nat) : FS × Nat × Except IoError Unit :=
  match fs p with
  | some (.file c) =>
    match writeBuffered pieces c free with
    | (c, free, ok) => (fs.set p (some (.file c)), free, if ok then .ok () else .error .noSpace)
  | _ => (fs, free, .ok ())

/-- core/src/format/gcmd.rs 95-103. -/
def addCommandsTo (p : FPath) (cs : List GraphCommand) (fs : FS) (free : Nat) : FS × Nat × Except IoError Unit :=
  match openAppend p fs with
  | (fs, .error e) => (fs, free, .error e)
  | (fs, .ok ()) => writeFile p (cs.flatMap fun c => [Format.Gcmd.commandIntoLine c, ['\n']]) fs free

/-- command/src/graph_utils.rs 163-168 with 42-50. -/
def applyGraphCommands (root : FPath) (cs : List GraphCommand) (fs : FS) (free : Nat) : FS × Nat × Except IoError Unit :=
  match lock root fs with
  | (fs, .error e) => (fs, free, .error e)
  | (fs, .ok ()) =>
    match addCommandsTo (commandPath root) cs fs free with
    | (fs, free, res) =>
      match unlock root fs with
      | (fs, .error e) => (fs, free, .error e)
      | (fs, .ok ()) => (fs, free, res)

/-- One option of gc-add or gc-delete, see `Store.mutateStep`. command/src/bin/gc-add.rs 90-128 and gc-delete.rs 44-53. -/
def mutateStep (root : FPath) (vals : Option (List Text)) (mk : List VertexId → Run (List GraphCommand)) (fs : FS) (free : Nat) :
    FS × Nat × Exit :=
  match vals with
  | none => (fs, free, .success)
  | some l =>
    match (Run.unwrap (Args.parseVertexIdList l)).bind mk with
    | .done cs =>
      match applyGraphCommands root cs fs free with
      | (fs, free, _) => (fs, free, .success)
    | _ => (fs, free, .panic)

/-- Sequence of steps of a program; a panic ends it. Parts of `main`, command/src/bin/gc-add.rs 90-128 and gc-delete.rs 44-53. -/
def andThen (r : FS × Nat × Exit) (f : FS → Nat → FS × Nat × Exit) : FS × Nat × Exit :=
  match r with
  | (fs, free, .success) => f fs free
  | (fs, free, .panic) => (fs, free, .panic)

/-- command/src/bin/gc-add.rs 87-129. -/
def gcAdd (root : FPath) (a : AddArgs) (fs : FS) (free : Nat) : FS × Nat × Exit :=
  andThen (mutateStep root a.vertex (fun vs => .done (vs.map .AddVertex)) fs free) fun fs free =>
  andThen (mutateStep root a.edge (mkEdges a.reverse) fs free) fun fs free =>
  andThen (mutateStep root a.chain (mkChain a.reverse) fs free) fun fs free =>
  andThen (mutateStep root a.cycle (mkCycle a.reverse) fs free) fun fs free =>
  andThen (mutateStep root a.star (mkStar a.reverse) fs free) fun fs free =>
  mutateStep root a.clique mkClique fs free

/-- command/src/bin/gc-delete.rs 42-54. -/
def gcDelete (root : FPath) (vertex edge : Option (List Text)) (fs : FS) (free : Nat) : FS × Nat × Exit :=
  andThen (mutateStep root vertex (fun vs => .done (vs.map .RemoveVertex)) fs free) fun fs free =>
  mutateStep root edge mkRemoveEdges fs free

/-- Bytes of the regular file at a path. Not in /repo; the command file of command/src/graph_utils.rs 155-160. -/
def sizeAt (p : FPath) (fs : FS) : Nat :=
  match fs p with
  | some (.file c) => c.length
  | _ => 0

/-- command/src/graph_utils.rs 64-73 with core/src/format/gcmd.rs 79-91. Truncating the file gives its room back. -/
def saveGraphAsCommands (root : FPath) (g : DirectedGraph) (fs : FS) (free : Nat) : FS × Nat × Except IoError Unit :=
  match createTruncate (commandPath root) fs with
  | (fs', .error e) => (fs', free, .error e)
  | (fs', .ok ()) =>
    writeFile (commandPath root)
      ((g.vertices.flatMap fun v => [Format.Gcmd.kwAddVertex, showId v, ['\n']]) ++
        (g.edges.flatMap fun e => [Format.Gcmd.kwAddEdge, showId e.src, [' '], showId e.dst, ['\n']]))
      fs' (free + sizeAt (commandPath root) fs)

/-- command/src/bin/gc-build.rs 31-43. -/
def gcBuild (nd : Char → Bool) (order : DirectedGraph → DirectedGraph) (root : FPath) (fs : FS) (free : Nat) : FS × Nat × Exit :=
  match loadGraph nd root fs with
  | .done (.ok g) =>
    match saveGraphAsCommands root (order g) fs free with
    | (fs, free, .ok ()) => (fs, free, .success)
    | (fs, free, .error _) => (fs, free, .panic)
  | _ => (fs, free, .panic)

end Disk
end GC
