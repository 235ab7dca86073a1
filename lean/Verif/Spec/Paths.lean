/-
How a directory can be written.
-/
import Verif.Model.Store
namespace GC
open Text Store

/-- `Spells cwd t d`: the text `t`, given to a process that runs in the directory `cwd`, means the directory `d`. The text consists of pieces with
slashes between them, none of them `..`. The names of the directories are the pieces that are neither empty nor a single dot. They count from the
top if the text begins with a slash, and from `cwd` if not. -/
def Spells (cwd : FPath) (t : Text) (d : FPath) : Prop :=
  ∃ ps : List Text, t = ['/'].intercalate ps ∧ (∀ p ∈ ps, '/' ∉ p ∧ p ≠ ['.', '.']) ∧
    d = (if t.head? = some '/' then [] else cwd) ++ ps.filter fun p => p ≠ [] ∧ p ≠ ['.']

/-- A process can run in `cwd` with this path: the text begins with a slash, or the directory `cwd` exists. -/
def Somewhere (cwd : FPath) (t : Text) (fs : FS) : Prop := t.head? = some '/' ∨ fs cwd = some .dir

end GC
