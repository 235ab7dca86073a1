/-
Specification notions for processes that may remove the command file, when batches of any size are written to it in several pieces.
-/
import Verif.Spec.Unlink
namespace GC
namespace Unlink
open Store

/-- The processes are gc-add, gc-delete, gc-init, gc-clean and queries. -/
def NoRewrite (jobs : List Job) : Prop :=
  (∀ j : Nat, jobs[j]? ≠ some .build) ∧ ∀ (j : Nat) (g : DirectedGraph), jobs[j]? ≠ some (.random g)

/-- What process `i` contributed to a file written in these pieces, in order. -/
def contribution (i : Nat) (pieces : List (Nat × Text)) : Text := ((pieces.filter fun p => p.1 = i).map Prod.snd).flatten

/-- Content of command file number `k` (`k` were removed before it) written in these pieces. The first one held `c`, later ones were
empty. -/
def fileText (c : Text) (k : Nat) (pieces : List (Nat × Text)) : Text := (if k = 0 then c else []) ++ (pieces.map Prod.snd).flatten

/-- The result of a query that read `text`, in one or several goes (it meets the end of the file in the middle of a line, takes the line as
complete, and finds that the file has grown). -/
def ReadAs (nd : Char → Bool) (text : Text) (res : Run (Except LoadError DirectedGraph)) : Prop :=
  ∃ goes : List Text, goes.flatten = text ∧ res = Concurrent.loadLines nd (goes.flatMap Text.lines)

/-- A history `W` that explains a state: `W k` are the pieces that were written to command file number `k`, each with the process that
wrote it. -/
structure Pieces (nd : Char → Bool) (root : FPath) (jobs : List Job) (c : Text) (W : Nat → List (Nat × Text)) (s : Sys) : Prop where
  /-- only gc-add and gc-delete wrote -/
  writers : ∀ k, ∀ p ∈ W k, ∃ cs, jobs[p.1]? = some (.add cs)
  /-- every process wrote to one file only -/
  one_file : ∀ k l, ∀ p ∈ W k, ∀ q ∈ W l, p.1 = q.1 → k = l
  /-- every process wrote a beginning of its batch -/
  batch : ∀ i cs k, jobs[i]? = some (.add cs) → contribution i (W k) <+: Format.Gcmd.commandsText cs
  /-- nothing was written to files that do not exist yet -/
  future : ∀ k, s.world.gen < k → W k = []
  /-- the command file has the content of the last file, if it is not removed -/
  stored : (s.world.fs (commandPath root) = none ∧ W s.world.gen = [] ∧ s.world.gen ≠ 0) ∨
    Content root s.world.fs (fileText c s.world.gen (W s.world.gen))
  /-- a query failed because there was no file, or it read one of the files, as it was at some time -/
  answers : ∀ i res, jobs[i]? = some .query → s.pc i = .answered res → res = .done (.error (.io .notFound)) ∨
    ∃ k, k ≤ s.world.gen ∧ ∃ pre, pre <+: W k ∧ ReadAs nd (fileText c k pre) res
  /-- a process that reported success wrote its whole batch -/
  success : ∀ i cs, jobs[i]? = some (.add cs) → s.pc i = .finished true →
    ∃ k, k ≤ s.world.gen ∧ contribution i (W k) = Format.Gcmd.commandsText cs

end Unlink
end GC
