/-
Sessions: the commands that change the stored graph, run one after the other on one directory.
-/
import Verif.Model.Random
namespace GC
namespace Store

/-- A run of one of the binaries command/src/bin/gc-init.rs 5-24, gc-add.rs 7-129,
gc-delete.rs 7-54, gc-build.rs 5-44, gc-clean.rs 6-62 and gc-random.rs 10-109, with its
options as split by clap. `answer` is the line typed at the prompt, `order` the iteration order of the hash map when a graph is saved,
`generated` the graph that gc-random has generated (the generation itself is `Random.createsRandomDag`). -/
inductive Cmd where
  | init
  | add (a : AddArgs)
  | delete (vertex edge : Option (List Text))
  | build (order : DirectedGraph → DirectedGraph)
  | clean (force : Bool) (answer : Text)
  | random (generated : DirectedGraph) (order : DirectedGraph → DirectedGraph) (force : Bool) (answer : Text)

/-- Runs the `main` of the binary (command/src/bin/gc-init.rs 22-23, gc-add.rs 87-129, gc-delete.rs 42-54, gc-build.rs 31-43,
gc-clean.rs 40-61, gc-random.rs 80-107). -/
def exec (nd : Char → Bool) (root : FPath) (cmd : Cmd) (fs : FS) : FS × Exit :=
  match cmd with
  | .init => gcInit root fs
  | .add a => gcAdd root a fs
  | .delete vertex edge => gcDelete root vertex edge fs
  | .build order => gcBuild nd order root fs
  | .clean force answer => gcClean root force answer fs
  | .random generated order force answer => Random.finish order root force answer fs (some generated)

/-- The commands in turn, whatever their exit codes; the final state and the exit codes. Not a function of the code: this is the user's
shell. Not in /repo; the binaries that are run are those of command/src/bin, each `main`, e.g. gc-add.rs 7-129. -/
def session (nd : Char → Bool) (root : FPath) : List Cmd → FS → FS × List Exit
  | [], fs => (fs, [])
  | cmd :: cmds, fs =>
    let r := exec nd root cmd fs
    let s := session nd root cmds r.1
    (s.1, r.2 :: s.2)

end Store
end GC
