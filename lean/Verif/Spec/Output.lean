/- Specification: a command on a standard output that may break. -/
import Verif.Model.Output
namespace GC
open Store Output

/-- `broken` is a run of a command that ended with `full` where standard output did not break: the files are as they were or as after the
whole run; the lines are the first ones of the whole run; and success means that the whole run was made. -/
structure CutShort (fs : FS) (full broken : State × Exit) : Prop where
  files : broken.1.fs = fs ∨ broken.1.fs = full.1.fs
  lines : broken.1.printed <+: full.1.printed
  success : broken.2 = .success → full.2 = .success ∧ broken.1.fs = full.1.fs ∧ broken.1.printed = full.1.printed

end GC
