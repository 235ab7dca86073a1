/- Specification for sessions on a disk that can be full. -/
import Verif.Spec.History
namespace GC
namespace Disk
open Store Text

/-- The size of the command file; 0 if there is none. -/
def storedBytes (root : FPath) (fs : FS) : Nat :=
  match fs (commandPath root) with
  | some (.file c) => c.length
  | _ => 0

/-- A file is cut off after `n` bytes. -/
def cutNode (n : Nat) : Option Node → Option Node
  | some (.file c) => some (.file (c.take n))
  | x => x

/-- The same files, with the command file cut off after `n` bytes. -/
def cutOff (root : FPath) (n : Nat) (fs : FS) : FS := fun q => if q = commandPath root then cutNode n (fs q) else fs q

end Disk
end GC
