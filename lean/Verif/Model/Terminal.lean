/-
The binaries of command/src/bin as processes at a terminal: the words of a command line go in; the text on standard output, the exit code and
the files come out. This puts `Model/Cli.lean` (command lines), `Model/Store.lean` and `Model/Output.lean` (commands that change the graph)
and `Model/Stream.lean` (queries) together. Standard output takes everything here (see `Model/Output.lean` and `Model/Stream.lean` if it does
not); what goes to standard error (messages of panics and of clap) is not modelled.
-/
import Verif.Model.Cli
import Verif.Model.Output
namespace GC
namespace Terminal
open Text Store Cli Clap GC.Stream

/-- What the run of a process meets: a binary heap, the iteration order of the hash maps, the random numbers, the line that the user types
if there is a prompt, and the texts that clap prints for `--help` and `--version`. Not in /repo: what core/src/iter/iter_datastructure.rs 88-109,
core/src/directed_graph.rs 12, command/src/bin/gc-random.rs 117-131 and command/src/arg_utils.rs 42-52 depend on. -/
structure Circumstances where
  heap : ScoredHeap
  order : DirectedGraph → DirectedGraph
  rng : Nat → UInt64
  answer : Text
  notice : Stop → Text

/-- A line typed at the terminal. Not in /repo; the binaries that are run are those of command/src/bin, each `main`, e.g. gc-add.rs 7-129. -/
structure Entry where
  tool : Tool
  words : List Text
  now : Circumstances

/-- A process that has ended: the files it leaves, the text it has printed, and its exit code. Of the `main` functions in command/src/bin, e.g.
gc-add.rs 7-129, gc-desc.rs 6-48. -/
structure Ended where
  fs : FS
  printed : Text
  code : Nat

/-- The exit code of a process: 0, or 101 after a panic (std). Of the `main` functions in command/src/bin, e.g. gc-add.rs 7-129, gc-desc.rs 6-48. -/
def exitCode : Exit → Nat
  | .success => 0
  | .panic => 101

/-- A process that prints nothing. Of the `main` functions in command/src/bin, e.g. gc-add.rs 7-129, gc-desc.rs 6-48. -/
def quiet (r : FS × Exit) : Ended := ⟨r.1, [], exitCode r.2⟩

/-- A process that prints lines. Of the `main` functions in command/src/bin, e.g. gc-add.rs 7-129, gc-desc.rs 6-48. -/
def ofLines (r : Output.State × Exit) : Ended := ⟨r.1.fs, r.1.printed.flatMap fun l => l ++ ['\n'], exitCode r.2⟩

/-- A process that only reads files: what it has printed has arrived also if it panics. Of the `main` functions in command/src/bin, e.g. gc-add.rs
7-129, gc-desc.rs 6-48. -/
def ofJob (j : Job Unit) (fs : FS) : Prog Ended := fun n =>
  match j n with
  | ⟨ps, .done ()⟩ => .done ⟨fs, ps.flatten, 0⟩
  | ⟨ps, .panicked⟩ => .done ⟨fs, ps.flatten, 101⟩
  | ⟨_, .running⟩ => .running

/-- The `main` functions after the command line has been read (gc-init.rs 22-24, gc-add.rs 87-129, gc-delete.rs 42-60, gc-build.rs 31-44,
gc-clean.rs 40-62, gc-random.rs 68-109 and the query commands in command/src/bin). -/
def invoke (nd : Char → Bool) (dir : Text → FPath) (c : Circumstances) (fs : FS) : Invocation → Prog Ended
  | .init path => Prog.ret (quiet (gcInit (dir path) fs))
  | .add path a => Prog.ret (quiet (gcAdd (dir path) a fs))
  | .delete path vertex edge => Prog.ret (quiet (gcDelete (dir path) vertex edge fs))
  | .build path verbose => Prog.ret (ofLines (Output.gcBuild nd c.order (dir path) verbose ⟨fs, [], none⟩))
  | .clean path force silent => Prog.ret (ofLines (Output.gcClean path (dir path) force silent c.answer ⟨fs, [], none⟩))
  | .random path force _ _ vertexCount edgeCount =>
    Prog.bind (Output.gcRandom c.rng c.order path (dir path) force c.answer vertexCount edgeCount ⟨fs, [], none⟩) fun r => Prog.ret (ofLines r)
  | .query path q => ofJob (q.job c.heap nd c.order (dir path) fs) fs

/-- A process from its command line on. clap 2 `App::get_matches`: after an error the message goes to standard error and the exit code is 1;
for help and version the text goes to standard output and the exit code is 0. Of the `main` functions in command/src/bin, e.g. gc-add.rs 7-129,
gc-desc.rs 6-48. -/
def process (nd : Char → Bool) (dir : Text → FPath) (l : Entry) (fs : FS) : Prog Ended :=
  match commandLine l.tool l.words with
  | .error .error => Prog.ret ⟨fs, [], 1⟩
  | .error e => Prog.ret ⟨fs, l.now.notice e, 0⟩
  | .ok none => Prog.ret ⟨fs, [], 101⟩
  | .ok (some i) => invoke nd dir l.now fs i

/-- Lines typed at the terminal, one after the other, each when the process before it has ended: what they print and their exit codes, and the
files in the end. Not a function of the code: this is the user's shell. Not in /repo; the binaries that are run are those of command/src/bin, each
`main`, e.g. gc-add.rs 7-129. -/
def terminal (nd : Char → Bool) (dir : Text → FPath) : List Entry → FS → Prog (List (Text × Nat) × FS)
  | [], fs => Prog.ret ([], fs)
  | l :: ls, fs => Prog.bind (process nd dir l fs) fun r =>
    Prog.bind (terminal nd dir ls r.fs) fun rest => Prog.ret ((r.printed, r.code) :: rest.1, rest.2)

end Terminal
end GC
