/-
Specification notions for the progress of processes that run at the same time.
-/
import Verif.Model.Unlink
namespace GC
namespace Unlink
open Store

/-- The process returned. -/
def Returned (pc : Pc) : Prop := (∃ ok, pc = .finished ok) ∨ ∃ res, pc = .answered res

/-- At every moment of the run, the command file and the removed command files that are still open hold at most `size` characters each. -/
def SizesWithin (nd : Char → Bool) (order : Nat → DirectedGraph → DirectedGraph) (root : FPath) (jobs : List Job) (schedule : List Nat) (fs : FS)
    (size : Nat) : Prop :=
  ∀ p, p <+: schedule → ∀ (file : Nat) (text : Text), (run nd order root jobs p fs).world.content root file = some text → text.length ≤ size

/-- The number of characters of the batches of all processes together. -/
def batchSizes (jobs : List Job) : Nat :=
  (jobs.map fun job =>
    match job with
    | .add cs => (Format.Gcmd.commandsText cs).length
    | _ => 0).sum

end Unlink
end GC
