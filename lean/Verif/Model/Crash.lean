/-
What the commands leave behind when they are killed (signal, power loss) at any point.

Every system call that changes the file system is one step; `create_dir_all` and `remove_dir_all` make one call for each directory entry, and
of a text that is being written any beginning may have reached the file. What a killed process leaves is not looked at by the code: these
relations list the intermediate states of the functions of `Verif/Model/Store.lean` and `Verif/Model/Random.lean`.
-/
import Verif.Model.History
namespace GC
namespace Store
open Text Format

/-- command/src/graph_utils.rs 135-143, killed: some of the directories are created, or the file too. -/
def TouchKilled (p : FPath) (fs fs' : FS) : Prop :=
  fs' = fs ∨ (∃ d, d <+: p.dropLast ∧ fs' = (createDirAll d fs).1) ∨ fs' = (touch p fs).1

/-- command/src/graph_utils.rs 42-50, killed: while taking the lock, in the block, or around the release of the lock. -/
def WithLockKilled {α : Type} (root : FPath) (block : FS → Io α) (blockKilled : FS → FS → Prop) (fs fs' : FS) : Prop :=
  TouchKilled (lockPath root) fs fs' ∨
  ∃ fs1, lock root fs = (fs1, .ok ()) ∧ (blockKilled fs1 fs' ∨ fs' = (block fs1).1 ∨ fs' = (withLock root block fs).1)

/-- core/src/format/gcmd.rs 95-103, killed: any beginning of the new lines may be in the file. -/
def AddKilled (p : FPath) (cs : List GraphCommand) (fs fs' : FS) : Prop := ∃ t, t <+: Gcmd.commandsText cs ∧ fs' = appendText p t fs

/-- core/src/format/gcmd.rs 79-91, killed: nothing happened, or the file is truncated and any beginning of the new text is in it. -/
def SaveKilled (root : FPath) (g : DirectedGraph) (fs fs' : FS) : Prop :=
  fs' = fs ∨ ∃ t, t <+: Gcmd.save g ∧ fs' = appendText (commandPath root) t (createTruncate (commandPath root) fs).1

/-- std `fs::remove_dir_all`, killed: some entries are removed, in any order in which the entries of a directory go before the directory. Used at
command/src/graph_utils.rs 79. -/
def RemoveDirKilled (p : FPath) (fs fs' : FS) : Prop :=
  (∀ q, fs' q = fs q ∨ p <+: q ∧ fs' q = none) ∧ ∀ q r, q <+: r → fs q ≠ none → fs' q = none → fs' r = none

/-- command/src/graph_utils.rs 77-81, killed. -/
def CleanKilled (root : FPath) : FS → FS → Prop := WithLockKilled root (removeDirAll (rootPath root)) (RemoveDirKilled (rootPath root))

/-- command/src/graph_utils.rs 163-168, killed. -/
def ApplyKilled (root : FPath) (cs : List GraphCommand) : FS → FS → Prop :=
  WithLockKilled root (addCommandsTo (commandPath root) cs) (AddKilled (commandPath root) cs)

/-- One option of gc-add or gc-delete (`mutateStep`), killed. command/src/bin/gc-add.rs 90-128 and gc-delete.rs 44-53. -/
def MutateKilled (root : FPath) (vals : Option (List Text)) (mk : List VertexId → Run (List GraphCommand)) (fs fs' : FS) : Prop :=
  fs' = fs ∨ ∃ l cs, vals = some l ∧ (Run.unwrap (Args.parseVertexIdList l)).bind mk = .done cs ∧ ApplyKilled root cs fs fs'

/-- Two parts of a program, killed in the first, or in the second after the first succeeded. Parts of `main`, command/src/bin/gc-add.rs 90-128 and
gc-delete.rs 44-53, command/src/bin/gc-random.rs 93-104. -/
def ThenKilled (k1 : FS → FS → Prop) (run1 : FS → FS × Exit) (k2 : FS → FS → Prop) (fs fs' : FS) : Prop :=
  k1 fs fs' ∨ ((run1 fs).2 = .success ∧ k2 (run1 fs).1 fs')

/-- One option of gc-add or gc-delete, and the rest of the program, killed. command/src/bin/gc-add.rs 90-128 and gc-delete.rs 44-53. -/
def StepKilled (root : FPath) (vals : Option (List Text)) (mk : List VertexId → Run (List GraphCommand)) (rest : FS → FS → Prop) :
    FS → FS → Prop :=
  ThenKilled (MutateKilled root vals mk) (mutateStep root vals mk) rest

/-- command/src/bin/gc-add.rs 87-129, killed. -/
def GcAddKilled (root : FPath) (a : AddArgs) : FS → FS → Prop :=
  StepKilled root a.vertex (fun vs => .done (vs.map .AddVertex)) <|
  StepKilled root a.edge (mkEdges a.reverse) <|
  StepKilled root a.chain (mkChain a.reverse) <|
  StepKilled root a.cycle (mkCycle a.reverse) <|
  StepKilled root a.star (mkStar a.reverse) <|
  MutateKilled root a.clique mkClique

/-- command/src/bin/gc-delete.rs 42-54, killed. -/
def GcDeleteKilled (root : FPath) (vertex edge : Option (List Text)) : FS → FS → Prop :=
  StepKilled root vertex (fun vs => .done (vs.map .RemoveVertex)) <|
  MutateKilled root edge mkRemoveEdges

/-- command/src/bin/gc-build.rs 31-43, killed. -/
def GcBuildKilled (nd : Char → Bool) (order : DirectedGraph → DirectedGraph) (root : FPath) (fs fs' : FS) : Prop :=
  fs' = fs ∨ ∃ g, loadGraph nd root fs = .done (.ok g) ∧ SaveKilled root (order g) fs fs'

/-- command/src/bin/gc-clean.rs 40-61, killed. -/
def GcCleanKilled (root : FPath) (force : Bool) (answer : Text) (fs fs' : FS) : Prop :=
  fs' = fs ∨ ((force || Args.confirmationYesNo answer) = true ∧ CleanKilled root fs fs')

/-- command/src/bin/gc-random.rs 93-104, killed. -/
def ReplaceKilled (root : FPath) (g : DirectedGraph) : FS → FS → Prop :=
  ThenKilled (CleanKilled root) (fun fs => expectOk (clean root fs)) <|
  ThenKilled (TouchKilled (commandPath root)) (fun fs => expectOk (init root fs)) <|
  SaveKilled root g

/-- command/src/bin/gc-random.rs 80-107, killed. -/
def GcRandomKilled (order : DirectedGraph → DirectedGraph) (root : FPath) (force : Bool) (answer : Text) (g : DirectedGraph)
    (fs fs' : FS) : Prop :=
  fs' = fs ∨ ((force || Args.confirmationYesNo answer) = true ∧ ReplaceKilled root (order g) fs fs')

/-- The states that a command may leave behind when it is killed (see `exec` for the commands; gc-init is command/src/bin/gc-init.rs 22-23). -/
def Killed (nd : Char → Bool) (root : FPath) (cmd : Cmd) : FS → FS → Prop :=
  match cmd with
  | .init => TouchKilled (commandPath root)
  | .add a => GcAddKilled root a
  | .delete vertex edge => GcDeleteKilled root vertex edge
  | .build order => GcBuildKilled nd order root
  | .clean force answer => GcCleanKilled root force answer
  | .random generated order force answer => GcRandomKilled order root force answer generated

/-- Commands in turn, each with a mark that tells whether it was killed. Not a function of the code: this is the user's shell. Not in /repo; the
binaries that are run are those of command/src/bin, each `main`, e.g. gc-add.rs 7-129. -/
inductive CrashSession (nd : Char → Bool) (root : FPath) : List (Cmd × Bool) → FS → FS → Prop where
  | nil {fs} : CrashSession nd root [] fs fs
  | ran {cmd cmds fs fs'} : CrashSession nd root cmds (exec nd root cmd fs).1 fs' → CrashSession nd root ((cmd, false) :: cmds) fs fs'
  | killed {cmd cmds fs fs1 fs'} : Killed nd root cmd fs fs1 → CrashSession nd root cmds fs1 fs' →
      CrashSession nd root ((cmd, true) :: cmds) fs fs'

end Store
end GC
