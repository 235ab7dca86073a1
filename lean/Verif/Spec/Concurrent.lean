/-
Specification notions for concurrent processes.
-/
import Verif.Model.Concurrent
import Verif.Spec.Store
namespace GC
namespace Concurrent
open Store Text

/-- The process is executing the block of `with_lock`: it has the lock and did not begin to release it. -/
def InBlock (pc : Pc) : Prop := pc = .locked ∨ ∃ rest, pc = .writing rest

/-- The process returned. -/
def Finished (pc : Pc) : Prop := ∃ ok, pc = .finished ok

/-- gc-build did not load its graph yet. -/
def NotLoaded (pc : Pc) : Prop := pc = .start ∨ ∃ r, pc = .reading r

/-- gc-build did not begin to write. -/
def NotWritten (pc : Pc) : Prop := NotLoaded pc ∨ ∃ g, pc = .loaded g

/-- All processes are additions (gc-add, gc-delete); process `i` adds `batches[i]`. -/
def adds (batches : List (List GraphCommand)) : List Job := batches.map .add

/-- The commands of process `i`. -/
def batchOf (jobs : List Job) (i : Nat) : List GraphCommand :=
  match jobs[i]? with
  | some (.add cs) => cs
  | _ => []

end Concurrent
end GC
