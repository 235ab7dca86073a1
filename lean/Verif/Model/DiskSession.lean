/-
All the commands that change the stored graph on a disk that can be full, and sessions of them, see `Verif/Model/Disk.lean`.

Simplification, in addition to those of `Verif/Model/Disk.lean`: only the command file takes room, so removing other files does not give room
back.
-/
import Verif.Model.Disk
import Verif.Model.History
namespace GC
namespace Disk
open Store Text

/-- command/src/graph_utils.rs 77-81. Removing the command file gives its room back. -/
def clean (root : FPath) (fs : FS) (free : Nat) : FS × Nat × Except IoError Unit :=
  match Store.clean root fs with
  | (fs', res) => (fs', free + sizeAt (commandPath root) fs - sizeAt (commandPath root) fs', res)

/-- command/src/graph_utils.rs 22-24. Creating an empty file takes no room. -/
def init (root : FPath) (fs : FS) (free : Nat) : FS × Nat × Except IoError Unit :=
  match Store.init root fs with
  | (fs', res) => (fs', free, res)

/-- `Result::expect` at the end of a program. command/src/bin/gc-init.rs 23, gc-build.rs 33-43, gc-clean.rs 55-58, gc-random.rs 93-104. -/
def expectOk (r : FS × Nat × Except IoError Unit) : FS × Nat × Exit :=
  match r with
  | (fs, free, .ok ()) => (fs, free, .success)
  | (fs, free, .error _) => (fs, free, .panic)

/-- command/src/bin/gc-clean.rs 40-61; `answer` is the line typed by the user. -/
def gcClean (root : FPath) (force : Bool) (answer : Text) (fs : FS) (free : Nat) : FS × Nat × Exit :=
  if !force && !Args.confirmationYesNo answer then (fs, free, .success) else expectOk (clean root fs free)

/-- command/src/bin/gc-random.rs 93-104: replaces the stored graph. -/
def replaceGraph (root : FPath) (g : DirectedGraph) (fs : FS) (free : Nat) : FS × Nat × Exit :=
  andThen (expectOk (clean root fs free)) fun fs free =>
  andThen (expectOk (init root fs free)) fun fs free =>
  expectOk (saveGraphAsCommands root g fs free)

/-- command/src/bin/gc-random.rs 80-107, once the graph is generated. -/
def gcRandom (order : DirectedGraph → DirectedGraph) (root : FPath) (force : Bool) (answer : Text) (g : DirectedGraph) (fs : FS) (free : Nat) :
    FS × Nat × Exit :=
  if !force && !Args.confirmationYesNo answer then (fs, free, .success) else replaceGraph root (order g) fs free

/-- Runs the `main` of the binary, see `Store.exec`: the files, the free bytes and the exit code. command/src/bin: gc-init.rs 5-24, gc-add.rs
7-129, gc-delete.rs 7-54, gc-build.rs 5-44, gc-clean.rs 6-62, gc-random.rs 10-109. -/
def exec (nd : Char → Bool) (root : FPath) (cmd : Cmd) (fs : FS) (free : Nat) : FS × Nat × Exit :=
  match cmd with
  | .init => expectOk (init root fs free)
  | .add a => gcAdd root a fs free
  | .delete vertex edge => gcDelete root vertex edge fs free
  | .build order => gcBuild nd order root fs free
  | .clean force answer => gcClean root force answer fs free
  | .random generated order force answer => gcRandom order root force answer generated fs free

/-- The commands in turn, whatever their exit codes. Not a function of the code: this is the user's shell. Not in /repo; the binaries that are run
are those of command/src/bin, each `main`, e.g. gc-add.rs 7-129. -/
def session (nd : Char → Bool) (root : FPath) : List Cmd → FS → Nat → FS × Nat × List Exit
  | [], fs, free => (fs, free, [])
  | cmd :: cmds, fs, free =>
    match exec nd root cmd fs free with
    | (fs, free, e) =>
      match session nd root cmds fs free with
      | (fs, free, es) => (fs, free, e :: es)

end Disk
end GC
