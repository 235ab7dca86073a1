/-
Without gc-clean and gc-random, the model with inodes (`Verif/Model/Unlink.lean`) and the model with paths (`Verif/Model/Concurrent.lean`) do
the same.
-/
import Verif.Proofs.CrashSteps
namespace GC
namespace Unlink
open Store Text Format

/-- The same process in the other model. -/
def liftJob : Concurrent.Job → Job
  | .add cs => .add cs
  | .build => .build
  | .query => .query
  | .init => .init

/-- The same place in the other model: the open command file is inode 0. -/
def liftPc : Concurrent.Pc → Pc
  | .start => .start
  | .dirs => .dirs
  | .locked => .locked
  | .writing rest => .writing 0 rest
  | .unlocking res => .unlocking (okOf res)
  | .reading r => .reading 0 r
  | .answered res => .answered res
  | .loaded g => .loaded g
  | .rewriting offset rest => .rewriting 0 offset rest
  | .finished ok => .finished ok

theorem stepJob_lift (nd : Char → Bool) (order : DirectedGraph → DirectedGraph) (root : FPath) (job : Concurrent.Job) (pc : Concurrent.Pc) (fs : FS)
    (o : Nat → Text) :
    stepJob nd order root (liftJob job) (liftPc pc) ⟨fs, 0, o⟩ =
      (⟨(Concurrent.stepJob nd order root job pc fs).1, 0, o⟩, liftPc (Concurrent.stepJob nd order root job pc fs).2) := by
  have hread : ∀ r, stepRead nd root 0 r ⟨fs, 0, o⟩ = Concurrent.stepRead nd root r fs := fun r => stepRead_gen nd root r ⟨fs, 0, o⟩
  have hopen : stepOpen root ⟨fs, 0, o⟩ = Concurrent.stepOpen root fs := rfl
  cases job with
  | add cs =>
    dsimp only [liftJob, stepJob, Concurrent.stepJob]
    cases pc with
    | start => rfl
    | dirs =>
      simp only [liftPc, stepAdd, stepLock, Concurrent.stepAdd]
      rcases openCreate (lockPath root) fs with ⟨fs1, _ | _⟩ <;> rfl
    | locked =>
      simp only [liftPc, stepAdd, Concurrent.stepAdd, openAppend]
      rcases fs (commandPath root) with _ | (_ | _) <;> rfl
    | writing rest => cases rest <;> rfl
    | unlocking res =>
      simp only [liftPc, stepAdd, stepUnlock, Concurrent.stepAdd]
      rcases unlock root fs with ⟨fs1, _ | _⟩ <;> rcases res with _ | _ <;> rfl
    | _ => rfl
  | build =>
    dsimp only [liftJob, stepJob, Concurrent.stepJob]
    cases pc with
    | start =>
      simp only [liftPc, stepBuild, Concurrent.stepBuild, hopen]
      rcases Concurrent.stepOpen root fs with r | (_ | _ | (_ | _)) <;> rfl
    | reading r =>
      simp only [liftPc, stepBuild, Concurrent.stepBuild, hread]
      rcases Concurrent.stepRead nd root r fs with r | (_ | _ | (_ | _)) <;> rfl
    | loaded g =>
      simp only [liftPc, stepBuild, stepSave, Concurrent.stepBuild]
      rcases createTruncate (commandPath root) fs with ⟨fs1, _ | _⟩ <;> rfl
    | rewriting offset rest => cases rest <;> rfl
    | _ => rfl
  | query =>
    dsimp only [liftJob, stepJob, Concurrent.stepJob]
    cases pc with
    | start =>
      simp only [liftPc, stepQuery, Concurrent.stepQuery, hopen]
      rcases Concurrent.stepOpen root fs with r | _ <;> rfl
    | reading r =>
      simp only [liftPc, stepQuery, Concurrent.stepQuery, hread]
      rcases Concurrent.stepRead nd root r fs with r | _ <;> rfl
    | _ => rfl
  | init =>
    dsimp only [liftJob, stepJob, Concurrent.stepJob]
    cases pc with
    | start => rfl
    | dirs =>
      simp only [liftPc, stepInit, initFile, Concurrent.stepInit]
      rcases openCreate (commandPath root) fs with ⟨fs1, _ | _⟩ <;> rfl
    | _ => rfl

theorem run_lift (nd : Char → Bool) (order : Nat → DirectedGraph → DirectedGraph) (root : FPath) (jobs : List Concurrent.Job) (schedule : List Nat) :
    ∀ (s : Concurrent.Sys) (o : Nat → Text),
      schedule.foldl (step nd order root (jobs.map liftJob)) ⟨⟨s.fs, 0, o⟩, fun i => liftPc (s.pc i)⟩ =
        ⟨⟨(schedule.foldl (Concurrent.step nd order root jobs) s).fs, 0, o⟩, fun i => liftPc ((schedule.foldl (Concurrent.step nd order root jobs) s).pc i)⟩ := by
  induction schedule with
  | nil => exact fun _ _ => rfl
  | cons i schedule ih =>
    intro s o
    rw [List.foldl_cons, List.foldl_cons, ← ih]
    congr 1
    unfold step Concurrent.step
    rw [List.getElem?_map]
    cases jobs[i]? with
    | none => rfl
    | some job =>
      simp only [Option.map_some]
      rw [stepJob_lift]
      dsimp only
      congr 1
      funext j
      split <;> rfl

end Unlink
end GC
