/-
The commands that change the stored graph when any call to the file system may fail at any time (an I/O error, missing permissions, a full
disk, a directory that somebody made read-only): relations between the state before, the state after and the result.

A failing call has no effect, except for the calls that consist of several steps: `create_dir_all` may have made some of the directories,
`remove_dir_all` may have removed some of the entries, and of a text that is being written any beginning may be in the file. The kind of
the error does not matter to the code. Simplifications: texts are ASCII, so bytes are characters; one process at a time; nothing is printed.
-/
import Verif.Model.Disk
import Verif.Model.Crash
namespace GC
namespace Faults
open Store Text

/-- A call of std that is made, or fails without an effect. The calls are those of command/src/graph_utils.rs 33-35, 58, 77-81, 135-143 and
core/src/format/gcmd.rs 80, 96. -/
def May {α : Type} (call : FS → Io α) (fs fs' : FS) (r : Except IoError α) : Prop :=
  call fs = (fs', r) ∨ (fs' = fs ∧ ∃ e, r = .error e)

/-- command/src/graph_utils.rs 135-143. Whether `create_dir_all` fails, and how far it came, is not looked at by the code. -/
def Touch (p : FPath) (fs fs' : FS) (r : Except IoError Unit) : Prop :=
  ∃ fs1, (fs1 = fs ∨ ∃ d, d <+: p.dropLast ∧ fs1 = (createDirAll d fs).1) ∧ May (openCreate p) fs1 fs' r

/-- command/src/graph_utils.rs 42-50 (28-35 for the lock), for blocks that do not panic. -/
def WithLock (root : FPath) (block : FS → FS → Except IoError Unit → Prop) (fs fs' : FS) (r : Except IoError Unit) : Prop :=
  (∃ e, Touch (lockPath root) fs fs' (.error e) ∧ r = .error e) ∨
  ∃ fs1 fs2 res, Touch (lockPath root) fs fs1 (.ok ()) ∧ block fs1 fs2 res ∧
    ((∃ e, May (removeFile (lockPath root)) fs2 fs' (.error e) ∧ r = .error e) ∨
      (May (removeFile (lockPath root)) fs2 fs' (.ok ()) ∧ r = res))

/-- A `BufWriter` on a file: the content of the file, the buffer. std, used at core/src/format/gcmd.rs 81-91 and 97-102. -/
structure Writer where
  content : Text
  buffer : Text

/-- std `File::write_all`: a beginning is written; an error if that is not everything. std, used at core/src/format/gcmd.rs 81-91 and 97-102. -/
def WriteOut (w : Writer) (text : Text) (w' : Writer) (ok : Bool) : Prop :=
  ∃ done rest, text = done ++ rest ∧ w' = { w with content := w.content ++ done } ∧ ok = rest.isEmpty

/-- std `BufWriter::flush_buf`: what was written leaves the buffer, also in case of an error. std, used at core/src/format/gcmd.rs 81-91 and
97-102. -/
def FlushBuf (w w' : Writer) (ok : Bool) : Prop :=
  ∃ done rest, w.buffer = done ++ rest ∧ w' = ⟨w.content ++ done, rest⟩ ∧ ok = rest.isEmpty

/-- std `BufWriter::write_all`: flush if the text does not fit; a text as large as the buffer is written directly. std, used at
core/src/format/gcmd.rs 81-91 and 97-102. -/
def WriteAll (w : Writer) (text : Text) (w' : Writer) (ok : Bool) : Prop :=
  ∃ w1 ok1, (if w.buffer.length + text.length > Concurrent.bufCapacity then FlushBuf w w1 ok1 else w1 = w ∧ ok1 = true) ∧
    ((ok1 = false ∧ w' = w1 ∧ ok = false) ∨
      (ok1 = true ∧
        if text.length ≥ Concurrent.bufCapacity then WriteOut w1 text w' ok else w' = { w1 with buffer := w1.buffer ++ text } ∧ ok = true))

/-- The pieces of several `writeln!(buffered, ..)?`, up to the first error. std, used at core/src/format/gcmd.rs 81-91 and 97-102. -/
inductive WritePieces : List Text → Writer → Writer → Bool → Prop where
  | nil {w} : WritePieces [] w w true
  | cons {t ts w w1 w' ok} : WriteAll w t w1 true → WritePieces ts w1 w' ok → WritePieces (t :: ts) w w' ok
  | fail {t ts w w1} : WriteAll w t w1 false → WritePieces (t :: ts) w w1 false

/-- core/src/format/gcmd.rs 81-90 and 97-102: a `BufWriter` is made, the pieces are written, and the `BufWriter` is dropped, which writes its
buffer (once more, if that failed before) and ignores errors. -/
def WriteBuffered (pieces : List Text) (content content' : Text) (ok : Bool) : Prop :=
  ∃ w w' ok', WritePieces pieces ⟨content, []⟩ w ok ∧ FlushBuf w w' ok' ∧ content' = w'.content

/-- `WriteBuffered` on the open file at a path. core/src/format/gcmd.rs 81-91 and 97-102. -/
def WriteFile (p : FPath) (pieces : List Text) (fs fs' : FS) (r : Except IoError Unit) : Prop :=
  ∃ c c' ok, fs p = some (.file c) ∧ WriteBuffered pieces c c' ok ∧ fs' = fs.set p (some (.file c')) ∧
    ((ok = true ∧ r = .ok ()) ∨ (ok = false ∧ ∃ e, r = .error e))

/-- Opens a file and writes to it. core/src/format/gcmd.rs 79-91, 95-103. -/
def OpenAndWrite (opened : FS → Io Unit) (p : FPath) (pieces : List Text) (fs fs' : FS) (r : Except IoError Unit) : Prop :=
  (∃ e, May opened fs fs' (.error e) ∧ r = .error e) ∨ ∃ fs1, May opened fs fs1 (.ok ()) ∧ WriteFile p pieces fs1 fs' r

/-- core/src/format/gcmd.rs 95-103. -/
def AddCommandsTo (p : FPath) (cs : List GraphCommand) : FS → FS → Except IoError Unit → Prop :=
  OpenAndWrite (openAppend p) p (cs.flatMap fun c => [Format.Gcmd.commandIntoLine c, ['\n']])

/-- command/src/graph_utils.rs 163-168. -/
def ApplyGraphCommands (root : FPath) (cs : List GraphCommand) : FS → FS → Except IoError Unit → Prop :=
  WithLock root (AddCommandsTo (commandPath root) cs)

/-- command/src/graph_utils.rs 64-73 with core/src/format/gcmd.rs 79-91. -/
def SaveGraph (root : FPath) (g : DirectedGraph) : FS → FS → Except IoError Unit → Prop :=
  OpenAndWrite (createTruncate (commandPath root)) (commandPath root)
    ((g.vertices.flatMap fun v => [Format.Gcmd.kwAddVertex, showId v, ['\n']]) ++
      (g.edges.flatMap fun e => [Format.Gcmd.kwAddEdge, showId e.src, [' '], showId e.dst, ['\n']]))

/-- std `fs::remove_dir_all`. Used at command/src/graph_utils.rs 79. -/
def RemoveDirAll (p : FPath) (fs fs' : FS) (r : Except IoError Unit) : Prop :=
  removeDirAll p fs = (fs', r) ∨ (RemoveDirKilled p fs fs' ∧ ∃ e, r = .error e)

/-- command/src/graph_utils.rs 77-81. -/
def Clean (root : FPath) : FS → FS → Except IoError Unit → Prop := WithLock root (RemoveDirAll (rootPath root))

/-- command/src/graph_utils.rs 53-62. An error when the file is opened is returned; an error while it is read panics
(core/src/format/utils.rs 42). -/
def LoadGraph (nd : Char → Bool) (root : FPath) (fs : FS) (r : Run (Except LoadError DirectedGraph)) : Prop :=
  loadGraph nd root fs = r ∨ (∃ e, r = .done (.error (.io e))) ∨ r = .panicked

/-! ### The binaries -/

/-- `Result::expect`. Used at command/src/bin/gc-init.rs 23, gc-build.rs 33-43, gc-clean.rs 55-58, gc-random.rs 93-104. -/
def exitOf : Except IoError Unit → Exit
  | .ok () => .success
  | .error _ => .panic

/-- A part of a program that ends with `expect`. command/src/bin/gc-init.rs 23, gc-build.rs 33-43, gc-clean.rs 55-58, gc-random.rs 93-104. -/
def Expect (run : FS → FS → Except IoError Unit → Prop) (fs fs' : FS) (e : Exit) : Prop := ∃ r, run fs fs' r ∧ e = exitOf r

/-- Sequence of steps of a program; a panic ends it. Parts of `main`, command/src/bin/gc-add.rs 90-128 and gc-delete.rs 44-53,
command/src/bin/gc-random.rs 93-104. -/
def Then (run1 run2 : FS → FS → Exit → Prop) (fs fs' : FS) (e : Exit) : Prop :=
  (run1 fs fs' .panic ∧ e = .panic) ∨ ∃ fs1, run1 fs fs1 .success ∧ run2 fs1 fs' e

/-- One option of gc-add or gc-delete, see `Store.mutateStep`: the result of applying the commands is not looked at. command/src/bin/gc-add.rs
90-128 and gc-delete.rs 44-53. -/
def MutateStep (root : FPath) (vals : Option (List Text)) (mk : List VertexId → Run (List GraphCommand)) (fs fs' : FS) (e : Exit) : Prop :=
  match vals with
  | none => fs' = fs ∧ e = .success
  | some l =>
    match (Run.unwrap (Args.parseVertexIdList l)).bind mk with
    | .done cs => (∃ r, ApplyGraphCommands root cs fs fs' r) ∧ e = .success
    | _ => fs' = fs ∧ e = .panic

/-- command/src/bin/gc-add.rs 87-129. -/
def GcAdd (root : FPath) (a : AddArgs) : FS → FS → Exit → Prop :=
  Then (MutateStep root a.vertex (fun vs => .done (vs.map .AddVertex))) <|
  Then (MutateStep root a.edge (mkEdges a.reverse)) <|
  Then (MutateStep root a.chain (mkChain a.reverse)) <|
  Then (MutateStep root a.cycle (mkCycle a.reverse)) <|
  Then (MutateStep root a.star (mkStar a.reverse)) <|
  MutateStep root a.clique mkClique

/-- command/src/bin/gc-delete.rs 42-54. -/
def GcDelete (root : FPath) (vertex edge : Option (List Text)) : FS → FS → Exit → Prop :=
  Then (MutateStep root vertex (fun vs => .done (vs.map .RemoveVertex))) <|
  MutateStep root edge mkRemoveEdges

/-- command/src/bin/gc-build.rs 31-43. -/
def GcBuild (nd : Char → Bool) (order : DirectedGraph → DirectedGraph) (root : FPath) (fs fs' : FS) (e : Exit) : Prop :=
  ∃ l, LoadGraph nd root fs l ∧
    match l with
    | .done (.ok g) => Expect (SaveGraph root (order g)) fs fs' e
    | _ => fs' = fs ∧ e = .panic

/-- command/src/bin/gc-clean.rs 40-61. -/
def GcClean (root : FPath) (force : Bool) (answer : Text) (fs fs' : FS) (e : Exit) : Prop :=
  if !force && !Args.confirmationYesNo answer then fs' = fs ∧ e = .success else Expect (Clean root) fs fs' e

/-- command/src/bin/gc-random.rs 93-104. -/
def Replace (root : FPath) (g : DirectedGraph) : FS → FS → Exit → Prop :=
  Then (Expect (Clean root)) <|
  Then (Expect (Touch (commandPath root))) <|
  Expect (SaveGraph root g)

/-- command/src/bin/gc-random.rs 80-107. -/
def GcRandom (order : DirectedGraph → DirectedGraph) (root : FPath) (force : Bool) (answer : Text) (g : DirectedGraph)
    (fs fs' : FS) (e : Exit) : Prop :=
  if !force && !Args.confirmationYesNo answer then fs' = fs ∧ e = .success else Replace root (order g) fs fs' e

/-- Runs the `main` of the binary, see `Store.exec` (gc-init is command/src/bin/gc-init.rs 22-23). -/
def Exec (nd : Char → Bool) (root : FPath) (cmd : Cmd) : FS → FS → Exit → Prop :=
  match cmd with
  | .init => Expect (Touch (commandPath root))
  | .add a => GcAdd root a
  | .delete vertex edge => GcDelete root vertex edge
  | .build order => GcBuild nd order root
  | .clean force answer => GcClean root force answer
  | .random generated order force answer => GcRandom order root force answer generated

/-- Commands in turn, whatever their exit codes, during which calls may fail. Not a function of the code: this is the user's shell. Not in /repo;
the binaries that are run are those of command/src/bin, each `main`, e.g. gc-add.rs 7-129. -/
inductive Session (nd : Char → Bool) (root : FPath) : List Cmd → FS → FS → Prop where
  | nil {fs} : Session nd root [] fs fs
  | cons {cmd cmds fs fs1 fs' e} : Exec nd root cmd fs fs1 e → Session nd root cmds fs1 fs' → Session nd root (cmd :: cmds) fs fs'

end Faults
end GC
