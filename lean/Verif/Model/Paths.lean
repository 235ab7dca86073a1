/-
Model of command/src/graph_utils.rs and of the commands that change the stored graph, from the text that is given for `--path` on: how std joins
and splits paths, and how the missing directories are made one by one. `Verif/Model/Store.lean` begins with the directory itself.

Simplifications: those of `Verif/Model/Store.lean`; `..` is taken as the directory above without a look at the file system, so that paths with
`..` are right only if the directories before it exist (the theorems exclude them). A name can have any length.
-/
import Verif.Model.History
namespace GC
namespace Paths
open Text Store

/-- The text between the slashes. std, used at command/src/graph_utils.rs 137, 145-160. -/
def pieces : Text → List Text
  | [] => [[]]
  | c :: t =>
    if c = '/' then [] :: pieces t
    else match pieces t with
      | p :: ps => (c :: p) :: ps
      | [] => [[c]]

/-- std `path::Component` (without prefixes, which are for Windows). std, used at command/src/graph_utils.rs 137, 145-160. -/
inductive Component where
  | rootDir
  | curDir
  | parentDir
  | normal (name : Text)
deriving DecidableEq, Repr

/-- std `Path::components`, what becomes of a piece: empty pieces and dots are dropped. std, used at command/src/graph_utils.rs 137, 145-160. -/
def component (p : Text) : Option Component :=
  if p = [] ∨ p = ['.'] then none else if p = ['.', '.'] then some .parentDir else some (.normal p)

/-- std `Path::components`: a slash at the beginning is a component, and so is a dot at the beginning. std, used at command/src/graph_utils.rs 137,
145-160. -/
def components (t : Text) : List Component :=
  (if t.head? = some '/' then [.rootDir] else if (pieces t).head? = some ['.'] then [.curDir] else []) ++ (pieces t).filterMap component

/-- std `Path::parent`, as components. std, used at command/src/graph_utils.rs 137, 145-160. -/
def parent (cs : List Component) : Option (List Component) :=
  match cs.getLast? with
  | none | some .rootDir => none
  | some _ => some cs.dropLast

/-- std `Path::join`. std, used at command/src/graph_utils.rs 137, 145-160. -/
def join (base name : Text) : Text :=
  if name.head? = some '/' then name else if base = [] ∨ base.getLast? = some '/' then base ++ name else base ++ '/' :: name

/-- How the operating system finds an entry, from the working directory `cwd`. Operating system; the paths are those of command/src/graph_utils.rs
145-160. -/
def resolve (cwd : FPath) (cs : List Component) : FPath :=
  cs.foldl (fun p c =>
    match c with
    | .rootDir => []
    | .curDir => p
    | .parentDir => p.dropLast
    | .normal n => p ++ [n]) cwd

/-- The entry that a text names. Operating system; the paths are those of command/src/graph_utils.rs 145-160. -/
def entry (cwd : FPath) (t : Text) : FPath := resolve cwd (components t)

/-- `mkdir(2)`. Operating system, through command/src/graph_utils.rs 137. -/
def mkdir (p : FPath) (fs : FS) : Io Unit :=
  match fs p with
  | some _ => (fs, .error .isDirectory)
  | none =>
    match fs p.dropLast with
    | some .dir => (fs.set p (some .dir), .ok ())
    | some (.file _) => (fs, .error .notADirectory)
    | none => (fs, .error .notFound)

/-- std `fs::create_dir_all` of the path with these components, last one first: nothing to do for the empty path; otherwise try to make the
directory; if the one above is missing, make that one first and try again. A directory that exists is no error. Used at command/src/graph_utils.rs
137. -/
def createDirs (cwd : FPath) : List Component → FS → Io Unit
  | [], fs => (fs, .ok ())
  | c :: rest, fs =>
    let p := resolve cwd (c :: rest).reverse
    match mkdir p fs with
    | (fs1, .ok ()) => (fs1, .ok ())
    | (_, .error .notFound) =>
      match parent (c :: rest).reverse with
      | none => (fs, .error .notFound)
      | some _ =>
        match createDirs cwd rest fs with
        | (fs1, .error e) => (fs1, .error e)
        | (fs1, .ok ()) =>
          match mkdir p fs1 with
          | (fs2, .ok ()) => (fs2, .ok ())
          | (_, .error e) => if fs1 p = some .dir then (fs1, .ok ()) else (fs1, .error e)
    | (_, .error e) => if fs p = some .dir then (fs, .ok ()) else (fs, .error e)

/-- command/src/graph_utils.rs 145-147. -/
def lockPath (path : Text) : Text := join path lockFile
/-- command/src/graph_utils.rs 149-153. -/
def rootPath (path : Text) : Text := join path graphRootDir
/-- command/src/graph_utils.rs 155-160. -/
def commandPath (path : Text) : Text := join (join path graphRootDir) commandsFile

/-- command/src/graph_utils.rs 135-143. -/
def touch (cwd : FPath) (t : Text) (fs : FS) : Io Unit :=
  match parent (components t) with
  | some d => openCreate (entry cwd t) (createDirs cwd d.reverse fs).1
  | none => openCreate (entry cwd t) fs

/-- command/src/graph_utils.rs 22-24. -/
def init (cwd : FPath) (path : Text) (fs : FS) : Io Unit := touch cwd (commandPath path) fs
/-- command/src/graph_utils.rs 28-30. -/
def lock (cwd : FPath) (path : Text) (fs : FS) : Io Unit := touch cwd (lockPath path) fs
/-- command/src/graph_utils.rs 33-35. -/
def unlock (cwd : FPath) (path : Text) (fs : FS) : Io Unit := removeFile (entry cwd (lockPath path)) fs

/-- command/src/graph_utils.rs 42-50. -/
def withLock {α : Type} (cwd : FPath) (path : Text) (block : FS → Io α) (fs : FS) : Io α :=
  match lock cwd path fs with
  | (fs1, .error e) => (fs1, .error e)
  | (fs1, .ok ()) =>
    match block fs1 with
    | (fs2, res) =>
      match unlock cwd path fs2 with
      | (fs3, .error e) => (fs3, .error e)
      | (fs3, .ok ()) => (fs3, res)

/-- command/src/graph_utils.rs 53-62. -/
def loadGraph (nd : Char → Bool) (cwd : FPath) (path : Text) (fs : FS) : Run (Except LoadError DirectedGraph) :=
  match fs (entry cwd (commandPath path)) with
  | none => .done (.error (.io .notFound))
  | some .dir => .panicked
  | some (.file content) =>
    (Format.Gcmd.read nd content).bind fun r =>
      match r with
      | .ok g => .done (.ok g)
      | .error e => .done (.error (.parse e))

/-- command/src/graph_utils.rs 64-73 with core/src/format/gcmd.rs 79-91. -/
def saveGraphAsCommands (cwd : FPath) (path : Text) (g : DirectedGraph) (fs : FS) : Io Unit :=
  match createTruncate (entry cwd (commandPath path)) fs with
  | (fs1, .error e) => (fs1, .error e)
  | (fs1, .ok ()) => (appendText (entry cwd (commandPath path)) (Format.Gcmd.save g) fs1, .ok ())

/-- command/src/graph_utils.rs 77-81. -/
def clean (cwd : FPath) (path : Text) (fs : FS) : Io Unit := withLock cwd path (removeDirAll (entry cwd (rootPath path))) fs

/-- command/src/graph_utils.rs 163-168. -/
def applyGraphCommands (cwd : FPath) (path : Text) (cs : List GraphCommand) (fs : FS) : Io Unit :=
  withLock cwd path (addCommandsTo (entry cwd (commandPath path)) cs) fs

/-- One option of gc-add or gc-delete, as `mutateStep`. command/src/bin/gc-add.rs 90-128 and gc-delete.rs 44-53. -/
def mutateStep (cwd : FPath) (path : Text) (vals : Option (List Text)) (mk : List VertexId → Run (List GraphCommand)) (fs : FS) : FS × Exit :=
  match vals with
  | none => (fs, .success)
  | some l =>
    match (Run.unwrap (Args.parseVertexIdList l)).bind mk with
    | .done cs => ((applyGraphCommands cwd path cs fs).1, .success)
    | _ => (fs, .panic)

/-- command/src/bin/gc-add.rs 87-129. -/
def gcAdd (cwd : FPath) (path : Text) (a : AddArgs) (fs : FS) : FS × Exit :=
  andThen (mutateStep cwd path a.vertex (fun vs => .done (vs.map .AddVertex)) fs) fun fs =>
  andThen (mutateStep cwd path a.edge (mkEdges a.reverse) fs) fun fs =>
  andThen (mutateStep cwd path a.chain (mkChain a.reverse) fs) fun fs =>
  andThen (mutateStep cwd path a.cycle (mkCycle a.reverse) fs) fun fs =>
  andThen (mutateStep cwd path a.star (mkStar a.reverse) fs) fun fs =>
  mutateStep cwd path a.clique mkClique fs

/-- command/src/bin/gc-delete.rs 42-54. -/
def gcDelete (cwd : FPath) (path : Text) (vertex edge : Option (List Text)) (fs : FS) : FS × Exit :=
  andThen (mutateStep cwd path vertex (fun vs => .done (vs.map .RemoveVertex)) fs) fun fs =>
  mutateStep cwd path edge mkRemoveEdges fs

/-- command/src/bin/gc-build.rs 31-43. -/
def gcBuild (nd : Char → Bool) (order : DirectedGraph → DirectedGraph) (cwd : FPath) (path : Text) (fs : FS) : FS × Exit :=
  match loadGraph nd cwd path fs with
  | .done (.ok g) => expectOk (saveGraphAsCommands cwd path (order g) fs)
  | _ => (fs, .panic)

/-- command/src/bin/gc-clean.rs 40-61. -/
def gcClean (cwd : FPath) (path : Text) (force : Bool) (answer : Text) (fs : FS) : FS × Exit :=
  if !force && !Args.confirmationYesNo answer then (fs, .success) else expectOk (clean cwd path fs)

/-- command/src/bin/gc-random.rs 80-107, for the graph that was made. -/
def gcRandom (order : DirectedGraph → DirectedGraph) (cwd : FPath) (path : Text) (force : Bool) (answer : Text) (g : DirectedGraph) (fs : FS) :
    FS × Exit :=
  if !force && !Args.confirmationYesNo answer then (fs, .success)
  else
    andThen (expectOk (clean cwd path fs)) fun fs =>
    andThen (expectOk (init cwd path fs)) fun fs =>
    expectOk (saveGraphAsCommands cwd path (order g) fs)

/-- A command that is run in the directory `cwd` with this text for `--path`; as `Store.exec`. command/src/bin: gc-init.rs 5-24, gc-add.rs 7-129,
gc-delete.rs 7-54, gc-build.rs 5-44, gc-clean.rs 6-62, gc-random.rs 10-109. -/
def exec (nd : Char → Bool) (cwd : FPath) (path : Text) (cmd : Cmd) (fs : FS) : FS × Exit :=
  match cmd with
  | .init => expectOk (init cwd path fs)
  | .add a => gcAdd cwd path a fs
  | .delete vertex edge => gcDelete cwd path vertex edge fs
  | .build order => gcBuild nd order cwd path fs
  | .clean force answer => gcClean cwd path force answer fs
  | .random generated order force answer => gcRandom order cwd path force answer generated fs

/-- Commands in turn, each with its own working directory and its own text for `--path`. Not a function of the code: this is the user's shell. Not
in /repo; the binaries that are run are those of command/src/bin, each `main`, e.g. gc-add.rs 7-129. -/
def session (nd : Char → Bool) : List (FPath × Text × Cmd) → FS → FS × List Exit
  | [], fs => (fs, [])
  | (cwd, path, cmd) :: l, fs =>
    let r := exec nd cwd path cmd fs
    ((session nd l r.1).1, r.2 :: (session nd l r.1).2)

end Paths
end GC
