/-
Model of the regular expressions of core/src/format/gcmd.rs and core/src/format/tgf.rs from their text on: that part of the `regex` crate which
they use, and the two `parse_line` functions on top of it. `Verif/Model/Format.lean` has recognisers made for each pattern instead.

Simplifications: classes, anchors, `+`, `*` and groups that are neither nested nor repeated; no alternatives, counts, flags or lazy repetitions
(the patterns have none). The crate's engines are replaced by the search they promise to agree with (leftmost-first: the first start, and from
there the longest repetition that lets the rest match).
-/
import Verif.Model.Format
namespace GC
namespace Regex
open Text Format

/-- What one character may be. Not in /repo; the patterns are those of core/src/format/gcmd.rs 45-48 and core/src/format/tgf.rs 31-32. -/
inductive Cls where
  | lit (c : Char)
  | digit
  | space
  | any
deriving DecidableEq, Repr

/-- regex crate: a character itself, `\d`, `\s`, and `.` (everything but a line feed). Not in /repo; the patterns are those of
core/src/format/gcmd.rs 45-48 and core/src/format/tgf.rs 31-32. -/
def Cls.has (nd : Char → Bool) : Cls → Char → Bool
  | .lit c, x => x == c
  | .digit, x => isDigit nd x
  | .space, x => isWhite x
  | .any, x => x != '\n'

/-- The parts of a pattern. Not in /repo; the patterns are those of core/src/format/gcmd.rs 45-48 and core/src/format/tgf.rs 31-32. -/
inductive Tok where
  | bol
  | eol
  | opn
  | cls
  | one (c : Cls)
  | plus (c : Cls)
  | star (c : Cls)
deriving DecidableEq, Repr

/-- regex-syntax crate: what stands behind a backslash. Not in /repo; the patterns are those of core/src/format/gcmd.rs 45-48 and
core/src/format/tgf.rs 31-32. -/
def escape : Char → Cls
  | 'd' => .digit
  | 's' => .space
  | c => .lit c

/-- regex-syntax crate: a character that stands alone. Not in /repo; the patterns are those of core/src/format/gcmd.rs 45-48 and
core/src/format/tgf.rs 31-32. -/
def plain : Char → Cls
  | '.' => .any
  | c => .lit c

/-- regex crate, `Regex::new` on a pattern of this kind. Not in /repo; the patterns are those of core/src/format/gcmd.rs 45-48 and
core/src/format/tgf.rs 31-32. -/
def parse : Text → List Tok
  | [] => []
  | '^' :: r => .bol :: parse r
  | '$' :: r => .eol :: parse r
  | '(' :: r => .opn :: parse r
  | ')' :: r => .cls :: parse r
  | '\\' :: c :: '+' :: r => .plus (escape c) :: parse r
  | '\\' :: c :: '*' :: r => .star (escape c) :: parse r
  | '\\' :: c :: r => .one (escape c) :: parse r
  | c :: '+' :: r => .plus (plain c) :: parse r
  | c :: '*' :: r => .star (plain c) :: parse r
  | c :: r => .one (plain c) :: parse r

/-- Takes as many characters as possible, and fewer only if the rest of the pattern, `k`, does not match behind them. Not in /repo; the patterns
are those of core/src/format/gcmd.rs 45-48 and core/src/format/tgf.rs 31-32. -/
def greedy (c : Char → Bool) (k : Nat → Text → Option Text → Option (List Text)) : Nat → Text → Option Text → Option (List Text)
  | pos, [], o => k pos [] o
  | pos, x :: s, o =>
    if c x then
      match greedy c k (pos + 1) s (o.map (· ++ [x])) with
      | some r => some r
      | none => k pos (x :: s) o
    else k pos (x :: s) o

/-- regex crate: a match that begins at the position `pos`, where `s` is the text from there on; `o` is what the open group has so far, `caps` the
groups that are closed. `^` is the beginning of the text and `$` its end (no multi-line mode). Not in /repo; the patterns are those of
core/src/format/gcmd.rs 45-48 and core/src/format/tgf.rs 31-32. -/
def run (nd : Char → Bool) : List Tok → List Text → Nat → Text → Option Text → Option (List Text)
  | [], caps, _, _, _ => some caps
  | .bol :: r, caps, pos, s, o => if pos = 0 then run nd r caps pos s o else none
  | .eol :: r, caps, pos, s, o => if s = [] then run nd r caps pos s o else none
  | .opn :: r, caps, pos, s, _ => run nd r caps pos s (some [])
  | .cls :: r, caps, pos, s, o => run nd r (caps ++ [o.getD []]) pos s none
  | .one c :: r, caps, pos, s, o =>
    match s with
    | [] => none
    | x :: s => if c.has nd x then run nd r caps (pos + 1) s (o.map (· ++ [x])) else none
  | .plus c :: r, caps, pos, s, o =>
    match s with
    | [] => none
    | x :: s => if c.has nd x then greedy (c.has nd) (run nd r caps) (pos + 1) s (o.map (· ++ [x])) else none
  | .star c :: r, caps, pos, s, o => greedy (c.has nd) (run nd r caps) pos s o

/-- regex crate: the first position where a match begins. Not in /repo; the patterns are those of core/src/format/gcmd.rs 45-48 and
core/src/format/tgf.rs 31-32. -/
def search (nd : Char → Bool) (toks : List Tok) : Nat → Text → Option (List Text)
  | pos, [] => run nd toks [] pos [] none
  | pos, x :: s =>
    match run nd toks [] pos (x :: s) none with
    | some r => some r
    | none => search nd toks (pos + 1) s

/-- regex crate, `captures_iter(line).next()`: the groups of the first match (without group 0, the match itself). Used at core/src/format/gcmd.rs
51-63, core/src/format/tgf.rs 35-40. -/
def captures (nd : Char → Bool) (pattern line : Text) : Option (List Text) := search nd (parse pattern) 0 line

/-- `cap[i].parse::<u64>().unwrap()` as a vertex id (`cap[i]` panics if there is no such group). core/src/format/gcmd.rs 52-63,
core/src/format/tgf.rs 36-40. -/
def group (cap : List Text) (i : Nat) : Run VertexId := (Run.unwrap cap[i - 1]?).bind captureId

/-- core/src/format/gcmd.rs 45. -/
def addVertexRe : Text := "^AddVertex (\\d+)$".toList
/-- core/src/format/gcmd.rs 46. -/
def addEdgeRe : Text := "^AddEdge (\\d+)\\s+(\\d+)$".toList
/-- core/src/format/gcmd.rs 47. -/
def removeVertexRe : Text := "^RemoveVertex (\\d+)$".toList
/-- core/src/format/gcmd.rs 48. -/
def removeEdgeRe : Text := "^RemoveEdge (\\d+)\\s+(\\d+)$".toList
/-- core/src/format/tgf.rs 31. -/
def vertexRe : Text := "^(\\d+)(.*)$".toList
/-- core/src/format/tgf.rs 32. -/
def edgeRe : Text := "^(\\d+)\\s+(\\d+)(.*)$".toList

/-- core/src/format/gcmd.rs 43-68. The error carries the line. -/
def gcmdLine (nd : Char → Bool) (line : Text) : Run (Except Text GraphCommand) :=
  match captures nd addEdgeRe line with
  | some cap => (group cap 1).bind fun v1 => (group cap 2).bind fun v2 => .done (.ok (.AddEdge v1 v2))
  | none =>
    match captures nd addVertexRe line with
    | some cap => (group cap 1).bind fun v1 => .done (.ok (.AddVertex v1))
    | none =>
      match captures nd removeEdgeRe line with
      | some cap => (group cap 1).bind fun v1 => (group cap 2).bind fun v2 => .done (.ok (.RemoveEdge v1 v2))
      | none =>
        match captures nd removeVertexRe line with
        | some cap => (group cap 1).bind fun v1 => .done (.ok (.RemoveVertex v1))
        | none => .done (.error line)

/-- core/src/format/tgf.rs 29-45. The error carries the line. -/
def tgfLine (nd : Char → Bool) (line : Text) : Run (Except Text GraphCommand) :=
  match captures nd edgeRe line with
  | some cap => (group cap 1).bind fun v1 => (group cap 2).bind fun v2 => .done (.ok (.AddEdge v1 v2))
  | none =>
    match captures nd vertexRe line with
    | some cap => (group cap 1).bind fun v1 => .done (.ok (.AddVertex v1))
    | none => .done (.error line)

end Regex
end GC
