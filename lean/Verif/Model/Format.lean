/-
Model of core/src/format/gcmd.rs, core/src/format/tgf.rs and core/src/format/utils.rs.
-/
import Verif.Model.Prog
import Verif.Model.Text
namespace GC
namespace Format
open Text

/-- core/src/format/utils.rs 46: the error "Error at line {n}: Couldn't parse '{line}'". Simplification: kept as data, not as a string. -/
inductive ReadError where
  | atLine (n : Nat) (line : Text)
deriving DecidableEq, Repr

/-- The literal prefix of a regular expression: the rest of the line behind it. Used for core/src/format/gcmd.rs 45-48. -/
def afterKeyword (kw line : Text) : Option Text :=
  if kw.isPrefixOf line then some (line.drop kw.length) else none

/-- Match of the regular expression `^<kw>(\d+)$`; capture 1. core/src/format/gcmd.rs 45, 47. -/
def matchOne (nd : Char → Bool) (kw line : Text) : Option Text :=
  match afterKeyword kw line with
  | some rest => if !rest.isEmpty && rest.all (isDigit nd) then some rest else none
  | none => none

/-- Match of the regular expression `^<kw>(\d+)\s+(\d+)$`; captures 1 and 2. Digits and white space are disjoint, so the greedy
split is the only one. core/src/format/gcmd.rs 46, 48. -/
def matchTwo (nd : Char → Bool) (kw line : Text) : Option (Text × Text) :=
  match afterKeyword kw line with
  | some rest =>
    let d1 := rest.takeWhile (isDigit nd)
    let r1 := rest.dropWhile (isDigit nd)
    let w := r1.takeWhile isWhite
    let d2 := r1.dropWhile isWhite
    if !d1.isEmpty && !w.isEmpty && !d2.isEmpty && d2.all (isDigit nd) then some (d1, d2) else none
  | none => none

/-- `&cap[i].parse::<u64>().unwrap()` as a vertex id. core/src/format/gcmd.rs 52-63, core/src/format/tgf.rs 36-40. -/
def captureId (s : Text) : Run VertexId := Run.unwrap ((parseU64 s).map VertexId.mk)

namespace Gcmd

/-- core/src/format/gcmd.rs 45. -/
def kwAddVertex : Text := ['A', 'd', 'd', 'V', 'e', 'r', 't', 'e', 'x', ' ']
/-- core/src/format/gcmd.rs 46. -/
def kwAddEdge : Text := ['A', 'd', 'd', 'E', 'd', 'g', 'e', ' ']
/-- core/src/format/gcmd.rs 47. -/
def kwRemoveVertex : Text := ['R', 'e', 'm', 'o', 'v', 'e', 'V', 'e', 'r', 't', 'e', 'x', ' ']
/-- core/src/format/gcmd.rs 48. -/
def kwRemoveEdge : Text := ['R', 'e', 'm', 'o', 'v', 'e', 'E', 'd', 'g', 'e', ' ']

/-- core/src/format/gcmd.rs 43-68. The error carries the line. -/
def parseLine (nd : Char → Bool) (line : Text) : Run (Except Text GraphCommand) :=
  match matchTwo nd kwAddEdge line with
  | some (c1, c2) => (captureId c1).bind fun v1 => (captureId c2).bind fun v2 => .done (.ok (.AddEdge v1 v2))
  | none =>
    match matchOne nd kwAddVertex line with
    | some c1 => (captureId c1).bind fun v1 => .done (.ok (.AddVertex v1))
    | none =>
      match matchTwo nd kwRemoveEdge line with
      | some (c1, c2) => (captureId c1).bind fun v1 => (captureId c2).bind fun v2 => .done (.ok (.RemoveEdge v1 v2))
      | none =>
        match matchOne nd kwRemoveVertex line with
        | some c1 => (captureId c1).bind fun v1 => .done (.ok (.RemoveVertex v1))
        | none => .done (.error line)

/-- core/src/format/gcmd.rs 105-113. -/
def commandIntoLine : GraphCommand → Text
  | .AddVertex v => kwAddVertex ++ showId v
  | .RemoveVertex v => kwRemoveVertex ++ showId v
  | .AddEdge a b => kwAddEdge ++ showId a ++ [' '] ++ showId b
  | .RemoveEdge a b => kwRemoveEdge ++ showId a ++ [' '] ++ showId b

/-- core/src/format/gcmd.rs 79-91: the text written to the (truncated) file. I/O errors are not modelled. -/
def save (g : DirectedGraph) : Text :=
  (g.vertices.flatMap fun v => kwAddVertex ++ showId v ++ ['\n']) ++
  (g.edges.flatMap fun e => kwAddEdge ++ showId e.src ++ [' '] ++ showId e.dst ++ ['\n'])

/-- core/src/format/gcmd.rs 98-101: the text appended for a list of commands. -/
def commandsText (cs : List GraphCommand) : Text := cs.flatMap fun c => commandIntoLine c ++ ['\n']

/-- core/src/format/gcmd.rs 95-103: content of the file afterwards. I/O errors are not modelled here (see `Verif/Model/Store.lean`). -/
def addCommands (content : Text) (cs : List GraphCommand) : Text := content ++ commandsText cs

end Gcmd

namespace Tgf

/-- Match of the regular expression `^(\d+)\s+(\d+)(.*)$`; captures 1 and 2. `.` does not match a line feed. core/src/format/tgf.rs 32. -/
def matchEdge (nd : Char → Bool) (line : Text) : Option (Text × Text) :=
  let d1 := line.takeWhile (isDigit nd)
  let r1 := line.dropWhile (isDigit nd)
  let w := r1.takeWhile isWhite
  let r2 := r1.dropWhile isWhite
  let d2 := r2.takeWhile (isDigit nd)
  let rest := r2.dropWhile (isDigit nd)
  if !d1.isEmpty && !w.isEmpty && !d2.isEmpty && rest.all (fun c => c ≠ '\n') then some (d1, d2) else none

/-- Match of the regular expression `^(\d+)(.*)$`; capture 1. core/src/format/tgf.rs 31. -/
def matchVertex (nd : Char → Bool) (line : Text) : Option Text :=
  let d1 := line.takeWhile (isDigit nd)
  let rest := line.dropWhile (isDigit nd)
  if !d1.isEmpty && rest.all (fun c => c ≠ '\n') then some d1 else none

/-- core/src/format/tgf.rs 29-45. -/
def parseLine (nd : Char → Bool) (line : Text) : Run (Except Text GraphCommand) :=
  match matchEdge nd line with
  | some (c1, c2) => (captureId c1).bind fun v1 => (captureId c2).bind fun v2 => .done (.ok (.AddEdge v1 v2))
  | none =>
    match matchVertex nd line with
    | some c1 => (captureId c1).bind fun v1 => .done (.ok (.AddVertex v1))
    | none => .done (.error line)

/-- core/src/format/tgf.rs 56-68: the text written to the (truncated) file. I/O errors are not modelled. -/
def save (g : DirectedGraph) : Text :=
  (g.vertices.flatMap fun v => showId v ++ ['\n']) ++
  (g.edges.flatMap fun e => showId e.src ++ [' '] ++ showId e.dst ++ ['\n'])

end Tgf

/-- core/src/format/gcmd.rs 70-72 and core/src/format/tgf.rs 47-49 (same code). -/
def isComment (line : Text) : Bool := ['#'].isPrefixOf (trim line)

/-- core/src/format/utils.rs 41-49: the loop over the enumerated lines. -/
def readLoop (parse : Text → Run (Except Text GraphCommand)) :
    Nat → List Text → List GraphCommand → Run (Except ReadError (List GraphCommand))
  | _, [], result => .done (.ok result)
  | index, line :: rest, result =>
    if !line.isEmpty && !isComment line then
      (parse line).bind fun r =>
        match r with
        | .ok command => readLoop parse (index + 1) rest (result ++ [command])
        | .error msg => .done (.error (.atLine (index + 1) msg))
    else readLoop parse (index + 1) rest result

/-- core/src/format/utils.rs 30-51. -/
def readAsCommands (parse : Text → Run (Except Text GraphCommand)) (content : Text) :
    Run (Except ReadError (List GraphCommand)) :=
  readLoop parse 0 (lines content) []

/-- core/src/format/utils.rs 13-27. -/
def read (parse : Text → Run (Except Text GraphCommand)) (content : Text) : Run (Except ReadError DirectedGraph) :=
  (readAsCommands parse content).bind fun r =>
    match r with
    | .ok cs => .done (.ok (GraphCommand.applyCommands cs .new))
    | .error e => .done (.error e)

/-- core/src/format/gcmd.rs 33-35. -/
def Gcmd.read (nd : Char → Bool) (content : Text) : Run (Except ReadError DirectedGraph) :=
  Format.read (Gcmd.parseLine nd) content

/-- core/src/format/gcmd.rs 38-40. -/
def Gcmd.readAsCommands (nd : Char → Bool) (content : Text) : Run (Except ReadError (List GraphCommand)) :=
  Format.readAsCommands (Gcmd.parseLine nd) content

/-- core/src/format/tgf.rs 19-21. -/
def Tgf.read (nd : Char → Bool) (content : Text) : Run (Except ReadError DirectedGraph) :=
  Format.read (Tgf.parseLine nd) content

/-- core/src/format/tgf.rs 24-26. -/
def Tgf.readAsCommands (nd : Char → Bool) (content : Text) : Run (Except ReadError (List GraphCommand)) :=
  Format.readAsCommands (Tgf.parseLine nd) content

end Format
end GC
