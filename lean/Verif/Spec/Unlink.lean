/-
Specification notions for processes that may remove the command file.
-/
import Verif.Model.Unlink
import Verif.Spec.Store
namespace GC
namespace Unlink
open Store

/-- The commands of process `i`. -/
def batchOf (jobs : List Job) (i : Nat) : List GraphCommand :=
  match jobs[i]? with
  | some (.add cs) => cs
  | _ => []

/-- The process did not open the command file yet (of the commands gc-add, gc-delete and the queries). -/
def NotOpened (pc : Pc) : Prop := pc = .start ∨ pc = .dirs ∨ pc = .locked

/-- The processes are gc-add, gc-delete, gc-init, gc-clean and queries, and every process adds at most 8192 bytes. -/
def Ordinary (jobs : List Job) : Prop :=
  (∀ j : Nat, jobs[j]? ≠ some .build) ∧ (∀ (j : Nat) (g : DirectedGraph), jobs[j]? ≠ some (.random g)) ∧
  ∀ (j : Nat) (cs : List GraphCommand), jobs[j]? = some (.add cs) → (Format.Gcmd.commandsText cs).length ≤ 8192

/-- The graph made by these processes one after the other, each with all its commands. The first command file held the graph `g`, those
created later (number `k > 0`) were empty. -/
def lifeGraph (jobs : List Job) (g : DirectedGraph) (k : Nat) (l : List Nat) : DirectedGraph :=
  GraphCommand.applyCommands (l.flatMap (batchOf jobs)) (if k = 0 then g else .new)

/-- A history `L` that explains a state: `L k` are the processes that wrote to command file number `k`, in the order in which they wrote
(`k` command files were removed before it). -/
structure Explains (nd : Char → Bool) (root : FPath) (jobs : List Job) (g : DirectedGraph) (L : Nat → List Nat) (s : Sys) : Prop where
  /-- every process wrote once -/
  once : ∀ k, (L k).Nodup
  /-- every process wrote to one file only -/
  one_file : ∀ i k l, i ∈ L k → i ∈ L l → k = l
  /-- only gc-add and gc-delete wrote -/
  writers : ∀ i k, i ∈ L k → ∃ cs, jobs[i]? = some (.add cs)
  /-- nothing was written to files that do not exist yet -/
  future : ∀ k, s.world.gen < k → L k = []
  /-- the stored graph is that of the last file, if it is not removed -/
  stored : (s.world.fs (commandPath root) = none ∧ L s.world.gen = [] ∧ s.world.gen ≠ 0) ∨
    loadGraph nd root s.world.fs = .done (.ok (lifeGraph jobs g s.world.gen (L s.world.gen)))
  /-- a query failed because there was no file, or it has the graph of one of the files, as it was at some time -/
  answers : ∀ i res, jobs[i]? = some .query → s.pc i = .answered res → res = .done (.error (.io .notFound)) ∨
    ∃ k, k ≤ s.world.gen ∧ ∃ pre, pre <+: L k ∧ res = .done (.ok (lifeGraph jobs g k pre))
  /-- a process that reported success did write -/
  success : ∀ i cs, jobs[i]? = some (.add cs) → cs ≠ [] → s.pc i = .finished true → ∃ k, k ≤ s.world.gen ∧ i ∈ L k

end Unlink
end GC
