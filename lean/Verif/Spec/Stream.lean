/- Specification of a standard output that takes only so many characters. -/
import Verif.Model.Stream
namespace GC.Stream
open Store

/-- What arrives of a text when the other end takes `room` characters (`none`: no limit). -/
def takeRoom (room : Option Nat) (t : Text) : Text :=
  match room with
  | none => t
  | some r => t.take r

/-- The text does not fit. -/
def Overfull (room : Option Nat) (t : Text) : Prop := ∃ r, room = some r ∧ r < t.length

/-- The whole text a query command prints, as in `Verif/Model/Main.lean`. -/
def Query.text (H : ScoredHeap) (nd : Char → Bool) (order : DirectedGraph → DirectedGraph) (root : FPath) (fs : FS) : Query → Prog Text
  | .topoSort => Main.gcTopoSort nd order root fs
  | .shortPath start end_ => Main.gcShortPath H nd order root start end_ fs
  | .csp start end_ a => Main.gcCsp H nd order root start end_ a fs
  | .cycle act a => Prog.bind (Main.gcCycle nd order root act a fs) fun lines => Prog.ret (lines.flatMap fun l => l ++ ['\n'])
  | .desc path => Prog.bind (Prog.lift (Store.gcDesc nd root fs)) fun d => Prog.ret (Main.descText path d)

end GC.Stream
