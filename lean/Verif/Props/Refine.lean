/-
Property C94: the two models of concurrent processes agree.
-/
import Verif.Proofs.Refine
import Verif.Props.BuildReaders
namespace GC
namespace Unlink
open Store Text Format

/-- C94: when neither gc-clean nor gc-random runs, the model with inodes and the model with paths have the same files after every schedule, every
process has reported the same, and every query has the same answer. So C63-C66, C70, C78-C83 and C98 hold in the model with inodes too. -/
theorem C94_same_without_clean (nd : Char → Bool) (order : Nat → DirectedGraph → DirectedGraph) (root : FPath) (jobs : List Concurrent.Job)
    (schedule : List Nat) (fs : FS) :
    let s := Concurrent.run nd order root jobs schedule fs
    let s' := run nd order root (jobs.map fun job => match job with | .add cs => .add cs | .build => .build | .query => .query | .init => .init) schedule fs
    s'.world.fs = s.fs ∧ (∀ i ok, s'.pc i = .finished ok ↔ s.pc i = .finished ok) ∧ (∀ i res, s'.pc i = .answered res ↔ s.pc i = .answered res) ∧
      ∀ i, s'.pc i = .start ↔ s.pc i = .start := by
  intro s s'
  have h : s' = _ := run_lift nd order root jobs schedule ⟨fs, fun _ => .start⟩ fun _ => []
  rw [h]
  have h1 : ∀ (pc : Concurrent.Pc) ok, liftPc pc = .finished ok ↔ pc = .finished ok := by
    intro pc ok; cases pc <;> simp [liftPc]
  have h2 : ∀ (pc : Concurrent.Pc) res, liftPc pc = .answered res ↔ pc = .answered res := by
    intro pc ok; cases pc <;> simp [liftPc]
  have h3 : ∀ (pc : Concurrent.Pc), liftPc pc = .start ↔ pc = .start := by
    intro pc; cases pc <;> simp [liftPc]
  exact ⟨rfl, fun i ok => h1 _ ok, fun i res => h2 _ res, fun i => h3 _⟩

/-- C94: gc-build alone, in the model with inodes, does what the model of gc-build does, on every file system. -/
theorem C94_build_alone (nd : Char → Bool) (order : Nat → DirectedGraph → DirectedGraph) (root : FPath) (fs : FS) :
    ∃ n, ∀ m, n ≤ m →
      (run nd order root [.build] (List.replicate m 0) fs).world.fs = (gcBuild nd (order 0) root fs).1 ∧
      ((gcBuild nd (order 0) root fs).2 = .success → (run nd order root [.build] (List.replicate m 0) fs).pc 0 = .finished true) ∧
      ((gcBuild nd (order 0) root fs).2 = .panic → (run nd order root [.build] (List.replicate m 0) fs).pc 0 = .finished false) := by
  obtain ⟨n, hn⟩ := Concurrent.C80_alone nd order root fs
  refine ⟨n, fun m hm => ?_⟩
  obtain ⟨h1, h2, h3⟩ := hn m hm
  obtain ⟨e1, e2, _⟩ := C94_same_without_clean nd order root [.build] (List.replicate m 0) fs
  exact ⟨e1.trans h1, fun h => (e2 0 true).2 (h2 h), fun h => (e2 0 false).2 (h3 h)⟩

-- gc-build of a file that cannot be read reports an error in both models.
example : (match (run (fun _ => false) (fun _ g => g) [['d']] [.build] (List.replicate 5 0) (sampleFS "x\n".toList)).pc 0 with
    | .finished false => true | _ => false) = true ∧ (gcBuild (fun _ => false) id [['d']] (sampleFS "x\n".toList)).2 = .panic := by
  decide +kernel

end Unlink
end GC
