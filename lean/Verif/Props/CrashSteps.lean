/-
Property C91: the states a killed process may leave include every state between two of its system calls.
-/
import Verif.Proofs.CrashSteps
import Verif.Props.RandomQueries
namespace GC
open Text Format Store Concurrent

/-- The files after the process has run alone for `n` system calls. -/
def filesAfter (nd : Char → Bool) (order : Nat → DirectedGraph → DirectedGraph) (root : FPath) (job : Unlink.Job) (n : Nat) (fs : FS) : FS :=
  (Unlink.run nd order root [job] (List.replicate n 0) fs).world.fs

/-- C91: on every file system, a process that is killed after any number of its system calls leaves files that the model of killed
processes counts as possible: gc-add and gc-delete (which append commands), gc-build, gc-init, gc-clean and gc-random. So the theorems about
killed processes speak about every crash point between two system calls. -/
theorem C91_every_step (nd : Char → Bool) (order : Nat → DirectedGraph → DirectedGraph) (root : FPath) (fs : FS) (hw : fs.WF) (n : Nat) :
    (∀ cs, ApplyKilled root cs fs (filesAfter nd order root (.add cs) n fs)) ∧
    GcBuildKilled nd (order 0) root fs (filesAfter nd order root .build n fs) ∧
    TouchKilled (commandPath root) fs (filesAfter nd order root .init n fs) ∧
    CleanKilled root fs (filesAfter nd order root .clean n fs) ∧
    ∀ g, ReplaceKilled root (order 0 g) fs (filesAfter nd order root (.random g) n fs) := by
  have hb : Unlink.NothingBelow root fs := Unlink.nothingBelow_of_wf hw
  have run : ∀ job, filesAfter nd order root job n fs = (Unlink.iter nd (order 0) root job n .start ⟨fs, 0, fun _ => []⟩).1.fs := fun job =>
    congrArg (fun x => x.1.fs) (Unlink.run_one nd order root job n ⟨⟨fs, 0, fun _ => []⟩, fun _ => .start⟩)
  simp only [run]
  refine ⟨fun cs => ?_, ?_, ?_, ?_, fun g => ?_⟩
  · exact (Unlink.iter_keeps (P := Unlink.AddAt root cs fs) (fun _ _ h => h.step) n .start ⟨fs, 0, fun _ => []⟩ rfl).killed
  · exact (Unlink.iter_keeps (P := Unlink.BuildAt nd (order 0) root fs) (fun _ _ h => h.step) n .start ⟨fs, 0, fun _ => []⟩ rfl).killed
  · exact (Unlink.iter_keeps (P := Unlink.InitAt root fs) (fun _ _ h => h.step) n .start ⟨fs, 0, fun _ => []⟩ rfl).killed
  · rcases Unlink.iter_keeps (nd := nd) (order := order 0) (job := .clean) (P := fun pc w => Unlink.CleanAt root fs pc w ∨ (∃ ok, pc = .finished ok) ∧ CleanKilled root fs w.fs)
      (fun _ _ h => Unlink.clean_steps hb h) n .start ⟨fs, 0, fun _ => []⟩ (.inl rfl) with h | h
    · exact h.killed
    · exact h.2
  · exact (Unlink.iter_keeps (P := Unlink.RandomAt root (order 0 g) fs) (fun _ _ h => h.step hb) n .start ⟨fs, 0, fun _ => []⟩ rfl).killed

-- In the middle of gc-clean, after four system calls, the file is gone and the directory is not.
example : filesAfter (fun _ => false) (fun _ g => g) [['d']] .clean 4 (sampleFS "AddVertex 1\n".toList) (commandPath [['d']]) = none ∧
    filesAfter (fun _ => false) (fun _ g => g) [['d']] .clean 4 (sampleFS "AddVertex 1\n".toList) (rootPath [['d']]) = some .dir ∧
    (sampleFS "AddVertex 1\n".toList).WF :=
  ⟨by rfl, by rfl, sampleFS_wf _⟩

end GC
