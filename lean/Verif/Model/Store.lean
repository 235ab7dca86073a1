/-
Model of command/src/graph_utils.rs and of the binaries that change the stored graph (gc-init, gc-clean, gc-build, gc-add, gc-delete,
gc-desc), on a file system made of directories and regular files.

Simplifications: no symbolic links, no permissions, no full disk (see `Verif/Model/Disk.lean`); paths are lists of components (so `to_str().unwrap()` cannot panic);
file contents are text (valid UTF-8; see `Verif/Model/Bytes.lean` for other bytes).
-/
import Verif.Model.Format
import Verif.Model.Args
namespace GC
namespace Store
open Text

/-- A path, as the list of its components. Operating system and std, used at command/src/graph_utils.rs 22-168. -/
abbrev FPath := List Text

/-- A directory entry. Operating system and std, used at command/src/graph_utils.rs 22-168. -/
inductive Node where
  | dir
  | file (content : Text)
deriving DecidableEq, Repr

/-- A file system. Operating system and std, used at command/src/graph_utils.rs 22-168. -/
abbrev FS := FPath → Option Node

/-- Kinds of `std::io::Error` that occur in the model. Operating system and std, used at command/src/graph_utils.rs 22-168. -/
inductive IoError where
  | notFound
  | isDirectory
  | notADirectory
  | noSpace
deriving DecidableEq, Repr

/-- Result of a file system call. Operating system and std, used at command/src/graph_utils.rs 22-168. -/
abbrev Io (α : Type) := FS × Except IoError α

/-- Replaces the entry at a path. Operating system and std, used at command/src/graph_utils.rs 22-168. -/
def FS.set (fs : FS) (p : FPath) (n : Option Node) : FS := fun q => if q = p then n else fs q

/-- The entry is a regular file. Used for command/src/graph_utils.rs 38-40, 58. -/
def isFile : Option Node → Bool
  | some (.file _) => true
  | _ => false

/-- std `fs::create_dir_all`: creates the missing directories on the way; fails when a regular file is in the way. Used at
command/src/graph_utils.rs 137. -/
def createDirAll (p : FPath) (fs : FS) : Io Unit :=
  if (List.range (p.length + 1)).any fun k => isFile (fs (p.take k)) then (fs, .error .notADirectory)
  else ((fun q => if q.isPrefixOf p then some .dir else fs q), .ok ())

/-- std `OpenOptions::new().create(true).write(true).open(path)`: an existing file is kept as it is. command/src/graph_utils.rs 138-142. -/
def openCreate (p : FPath) (fs : FS) : Io Unit :=
  match fs p with
  | some (.file _) => (fs, .ok ())
  | some .dir => (fs, .error .isDirectory)
  | none =>
    match fs p.dropLast with
    | some .dir => (fs.set p (some (.file [])), .ok ())
    | some (.file _) => (fs, .error .notADirectory)
    | none => (fs, .error .notFound)

/-- std `fs::remove_file`. Used at command/src/graph_utils.rs 34. -/
def removeFile (p : FPath) (fs : FS) : Io Unit :=
  match fs p with
  | some (.file _) => (fs.set p none, .ok ())
  | some .dir => (fs, .error .isDirectory)
  | none => (fs, .error .notFound)

/-- std `fs::remove_dir_all`: removes a directory and everything below it. Used at command/src/graph_utils.rs 79. -/
def removeDirAll (p : FPath) (fs : FS) : Io Unit :=
  match fs p with
  | some .dir => ((fun q => if p.isPrefixOf q then none else fs q), .ok ())
  | some (.file _) => (fs, .error .notADirectory)
  | none => (fs, .error .notFound)

/-- std `File::create`: an existing file is truncated. Used at core/src/format/gcmd.rs 80. -/
def createTruncate (p : FPath) (fs : FS) : Io Unit :=
  match fs p with
  | some (.file _) => (fs.set p (some (.file [])), .ok ())
  | some .dir => (fs, .error .isDirectory)
  | none =>
    match fs p.dropLast with
    | some .dir => (fs.set p (some (.file [])), .ok ())
    | some (.file _) => (fs, .error .notADirectory)
    | none => (fs, .error .notFound)

/-- std `OpenOptions::new().write(true).append(true).open(path)`: the file must exist. core/src/format/gcmd.rs 96. -/
def openAppend (p : FPath) (fs : FS) : Io Unit :=
  match fs p with
  | some (.file _) => (fs, .ok ())
  | some .dir => (fs, .error .isDirectory)
  | none => (fs, .error .notFound)

/-- One `write` on a file opened for appending: the text is added at the current end of the file. Operating system, through core/src/format/gcmd.rs
97-102. -/
def appendText (p : FPath) (text : Text) (fs : FS) : FS :=
  match fs p with
  | some (.file c) => fs.set p (some (.file (c ++ text)))
  | _ => fs

/-- command/src/graph_utils.rs 17: `.graph`. -/
def graphRootDir : Text := ['.', 'g', 'r', 'a', 'p', 'h']
/-- command/src/graph_utils.rs 18: `commands`. -/
def commandsFile : Text := ['c', 'o', 'm', 'm', 'a', 'n', 'd', 's']
/-- command/src/graph_utils.rs 19: `lock`. -/
def lockFile : Text := ['l', 'o', 'c', 'k']

/-- command/src/graph_utils.rs 145-147. -/
def lockPath (root : FPath) : FPath := root ++ [lockFile]
/-- command/src/graph_utils.rs 149-153. -/
def rootPath (root : FPath) : FPath := root ++ [graphRootDir]
/-- command/src/graph_utils.rs 155-160. -/
def commandPath (root : FPath) : FPath := root ++ [graphRootDir] ++ [commandsFile]

/-- command/src/graph_utils.rs 135-143. The result of `create_dir_all` is ignored by the code. -/
def touch (p : FPath) (fs : FS) : Io Unit := openCreate p (createDirAll p.dropLast fs).1

/-- command/src/graph_utils.rs 22-24. -/
def init (root : FPath) (fs : FS) : Io Unit := touch (commandPath root) fs

/-- command/src/graph_utils.rs 28-30. -/
def lock (root : FPath) (fs : FS) : Io Unit := touch (lockPath root) fs

/-- command/src/graph_utils.rs 33-35. -/
def unlock (root : FPath) (fs : FS) : Io Unit := removeFile (lockPath root) fs

/-- command/src/graph_utils.rs 38-40. -/
def isLocked (root : FPath) (fs : FS) : Bool := (fs (lockPath root)).isSome

/-- command/src/graph_utils.rs 42-50, for blocks that do not panic. -/
def withLock {α : Type} (root : FPath) (block : FS → Io α) (fs : FS) : Io α :=
  match lock root fs with
  | (fs1, .error e) => (fs1, .error e)
  | (fs1, .ok ()) =>
    match block fs1 with
    | (fs2, res) =>
      match unlock root fs2 with
      | (fs3, .error e) => (fs3, .error e)
      | (fs3, .ok ()) => (fs3, res)

/-- Errors of `load_graph`. command/src/graph_utils.rs 53-62. -/
inductive LoadError where
  | io (e : IoError)
  | parse (e : Format.ReadError)
deriving DecidableEq, Repr

/-- command/src/graph_utils.rs 53-62. `File::open` succeeds on a directory; reading it fails, and the `unwrap` in
core/src/format/utils.rs 42 panics. -/
def loadGraph (nd : Char → Bool) (root : FPath) (fs : FS) : Run (Except LoadError DirectedGraph) :=
  match fs (commandPath root) with
  | none => .done (.error (.io .notFound))
  | some .dir => .panicked
  | some (.file content) =>
    (Format.Gcmd.read nd content).bind fun r =>
      match r with
      | .ok g => .done (.ok g)
      | .error e => .done (.error (.parse e))

/-- command/src/graph_utils.rs 64-73 with core/src/format/gcmd.rs 79-91. -/
def saveGraphAsCommands (root : FPath) (g : DirectedGraph) (fs : FS) : Io Unit :=
  match createTruncate (commandPath root) fs with
  | (fs1, .error e) => (fs1, .error e)
  | (fs1, .ok ()) => (appendText (commandPath root) (Format.Gcmd.save g) fs1, .ok ())

/-- command/src/graph_utils.rs 77-81. -/
def clean (root : FPath) (fs : FS) : Io Unit := withLock root (removeDirAll (rootPath root)) fs

/-- core/src/format/gcmd.rs 95-103 on the file system, the whole text being written at once. -/
def addCommandsTo (p : FPath) (cs : List GraphCommand) (fs : FS) : Io Unit :=
  match openAppend p fs with
  | (fs1, .error e) => (fs1, .error e)
  | (fs1, .ok ()) => (appendText p (Format.Gcmd.commandsText cs) fs1, .ok ())

/-- command/src/graph_utils.rs 163-168. -/
def applyGraphCommands (root : FPath) (cs : List GraphCommand) (fs : FS) : Io Unit :=
  withLock root (addCommandsTo (commandPath root) cs) fs

/-- command/src/graph_utils.rs 89-91 (and 84-86 with one vertex). -/
def addVertices (root : FPath) (vids : List VertexId) (fs : FS) : Io Unit := applyGraphCommands root (vids.map .AddVertex) fs
/-- command/src/graph_utils.rs 99-107 (and 94-96 with one edge). -/
def addEdges (root : FPath) (es : List (VertexId × VertexId)) (fs : FS) : Io Unit :=
  applyGraphCommands root (es.map fun p => .AddEdge p.1 p.2) fs
/-- command/src/graph_utils.rs 115-120 (and 110-112 with one vertex). -/
def removeVertices (root : FPath) (vids : List VertexId) (fs : FS) : Io Unit :=
  applyGraphCommands root (vids.map .RemoveVertex) fs
/-- command/src/graph_utils.rs 123-131. -/
def removeEdges (root : FPath) (es : List (VertexId × VertexId)) (fs : FS) : Io Unit :=
  applyGraphCommands root (es.map fun p => .RemoveEdge p.1 p.2) fs

/-! ### The binaries -/

/-- How a process ends: normally (exit code 0) or by a panic (exit code 101). Of the `main` functions in command/src/bin, e.g. gc-add.rs 7-129. -/
inductive Exit where
  | success
  | panic
deriving DecidableEq, Repr

/-- `Result::expect` at the end of a program. command/src/bin/gc-init.rs 23, gc-build.rs 33-43, gc-clean.rs 55-58, gc-random.rs 93-104. -/
def expectOk (r : Io Unit) : FS × Exit :=
  match r with
  | (fs, .ok ()) => (fs, .success)
  | (fs, .error _) => (fs, .panic)

/-- command/src/bin/gc-init.rs 22-23. -/
def gcInit (root : FPath) (fs : FS) : FS × Exit := expectOk (init root fs)

/-- command/src/bin/gc-clean.rs 40-61; `answer` is the line typed by the user. -/
def gcClean (root : FPath) (force : Bool) (answer : Text) (fs : FS) : FS × Exit :=
  if !force && !Args.confirmationYesNo answer then (fs, .success) else expectOk (clean root fs)

/-- command/src/bin/gc-build.rs 31-43. `order` is the iteration order of the hash map when the graph is saved. -/
def gcBuild (nd : Char → Bool) (order : DirectedGraph → DirectedGraph) (root : FPath) (fs : FS) : FS × Exit :=
  match loadGraph nd root fs with
  | .done (.ok g) => expectOk (saveGraphAsCommands root (order g) fs)
  | _ => (fs, .panic)

/-- One option of gc-add or gc-delete: parse every value (`expect`), build the commands (`expect`), apply them; the result of applying
them is not looked at. Option not given: nothing happens. command/src/bin/gc-add.rs 90-128 and gc-delete.rs 44-53. -/
def mutateStep (root : FPath) (vals : Option (List Text)) (mk : List VertexId → Run (List GraphCommand)) (fs : FS) : FS × Exit :=
  match vals with
  | none => (fs, .success)
  | some l =>
    match (Run.unwrap (Args.parseVertexIdList l)).bind mk with
    | .done cs => ((applyGraphCommands root cs fs).1, .success)
    | _ => (fs, .panic)

/-- Sequence of steps of a program; a panic ends it. Parts of `main`, command/src/bin/gc-add.rs 90-128 and gc-delete.rs 44-53. -/
def andThen (r : FS × Exit) (f : FS → FS × Exit) : FS × Exit :=
  match r with
  | (fs, .success) => f fs
  | (fs, .panic) => (fs, .panic)

/-- Options of gc-add (command/src/bin/gc-add.rs 8-82). -/
structure AddArgs where
  vertex : Option (List Text) := none
  reverse : Bool := false
  edge : Option (List Text) := none
  chain : Option (List Text) := none
  cycle : Option (List Text) := none
  star : Option (List Text) := none
  clique : Option (List Text) := none

/-- `add_edges` of a list of pairs. command/src/graph_utils.rs 99-107. -/
def edgeCommands (ps : List (VertexId × VertexId)) : List GraphCommand := ps.map fun p => .AddEdge p.1 p.2

/-- command/src/bin/gc-add.rs 95-103, `--edge`. -/
def mkEdges (rev : Bool) (vs : List VertexId) : Run (List GraphCommand) :=
  (Run.unwrap (Args.asVertexTuple vs)).bind fun ps => .done (edgeCommands (Args.reverseIfNeeded rev ps))
/-- command/src/bin/gc-add.rs 105-109, `--chain`. -/
def mkChain (rev : Bool) (vs : List VertexId) : Run (List GraphCommand) :=
  (Args.chainFromVertices vs).bind fun ps => .done (edgeCommands (Args.reverseIfNeeded rev ps))
/-- command/src/bin/gc-add.rs 111-117, `--cycle`. -/
def mkCycle (rev : Bool) (vs : List VertexId) : Run (List GraphCommand) :=
  (Run.unwrap (Args.cycleFromVertices vs)).bind fun r => r.bind fun ps => .done (edgeCommands (Args.reverseIfNeeded rev ps))
/-- command/src/bin/gc-add.rs 119-123, `--star`. -/
def mkStar (rev : Bool) (vs : List VertexId) : Run (List GraphCommand) :=
  (Args.starFromVertices vs).bind fun ps => .done (edgeCommands (Args.reverseIfNeeded rev ps))
/-- command/src/bin/gc-add.rs 125-128, `--clique` (not reversed). -/
def mkClique (vs : List VertexId) : Run (List GraphCommand) :=
  (Args.cliqueFromVertices vs).bind fun ps => .done (edgeCommands ps)

/-- command/src/bin/gc-add.rs 87-129. -/
def gcAdd (root : FPath) (a : AddArgs) (fs : FS) : FS × Exit :=
  andThen (mutateStep root a.vertex (fun vs => .done (vs.map .AddVertex)) fs) fun fs =>
  andThen (mutateStep root a.edge (mkEdges a.reverse) fs) fun fs =>
  andThen (mutateStep root a.chain (mkChain a.reverse) fs) fun fs =>
  andThen (mutateStep root a.cycle (mkCycle a.reverse) fs) fun fs =>
  andThen (mutateStep root a.star (mkStar a.reverse) fs) fun fs =>
  mutateStep root a.clique mkClique fs

/-- `--edge` of gc-delete (command/src/bin/gc-delete.rs 49-53). -/
def mkRemoveEdges (vs : List VertexId) : Run (List GraphCommand) :=
  (Run.unwrap (Args.asVertexTuple vs)).bind fun ps => .done (ps.map fun p => .RemoveEdge p.1 p.2)

/-- command/src/bin/gc-delete.rs 42-54. -/
def gcDelete (root : FPath) (vertex edge : Option (List Text)) (fs : FS) : FS × Exit :=
  andThen (mutateStep root vertex (fun vs => .done (vs.map .RemoveVertex)) fs) fun fs =>
  mutateStep root edge mkRemoveEdges fs

/-- What gc-desc prints. command/src/bin/gc-desc.rs 25-45. -/
structure Desc where
  vertices : Nat
  edges : Nat
  minId : Option UInt64
  maxId : Option UInt64
deriving DecidableEq, Repr

/-- std `Iterator::min` of numbers. Used at command/src/bin/gc-desc.rs 33. -/
def listMin : List UInt64 → Option UInt64
  | [] => none
  | x :: l => some (l.foldl (fun m y => if y < m then y else m) x)

/-- std `Iterator::max` of numbers. Used at command/src/bin/gc-desc.rs 42. -/
def listMax : List UInt64 → Option UInt64
  | [] => none
  | x :: l => some (l.foldl (fun m y => if m ≤ y then y else m) x)

/-- command/src/bin/gc-desc.rs 24-45: the values printed for the loaded graph. -/
def describe (g : DirectedGraph) : Desc :=
  { vertices := g.vertexCount, edges := g.edgeCount,
    minId := listMin (g.vertices.map VertexId.id), maxId := listMax (g.vertices.map VertexId.id) }

/-- command/src/bin/gc-desc.rs 21-45. -/
def gcDesc (nd : Char → Bool) (root : FPath) (fs : FS) : Run Desc :=
  (loadGraph nd root fs).bind fun r =>
    match r with
    | .ok g => .done (describe g)
    | .error _ => .panicked

end Store
end GC
