/-
Specification notions for additions that are made while gc-build runs.
-/
import Verif.Spec.Concurrent
namespace GC
namespace Concurrent

/-- The addition has written its batch. -/
def Wrote (pc : Pc) : Prop := pc = .writing [] ∨ (∃ r, pc = .unlocking r) ∨ Finished pc

end Concurrent
end GC
