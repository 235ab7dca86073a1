/-
C134: lines of files are matched by the regular expressions that stand in the code.
-/
import Verif.Proofs.Regex
import Verif.Props.Format
namespace GC
namespace Regex
open Text Format

/-- **C134**: the groups that a search returns are those of a match: the line is cut into what stands before, pieces which the parts of the pattern
accept in turn, and what stands after. No match begins further to the left. -/
theorem C134_search_is_right (nd : Char → Bool) (pattern line : Text) {cap : List Text} (h : captures nd pattern line = some cap) :
    ∃ before ps after, line = before ++ (ps.flatten ++ after) ∧ Fits nd (parse pattern) ps before after ∧ cap = groups none (parse pattern) ps ∧
      ∀ n, n < before.length → ∀ ps' after', line.drop n = ps'.flatten ++ after' → ¬ Fits nd (parse pattern) ps' (line.take n) after' := by
  obtain ⟨sk, ps, after, h1, h2, h3, h4⟩ := search_sound (before := []) h
  exact ⟨sk, ps, after, h1, by simpa using h2, h3, by simpa using h4⟩

/-- **C134**: a match that exists is found. -/
theorem C134_search_is_complete (nd : Char → Bool) (pattern : Text) {before after : Text} {ps : List Text} (h : Fits nd (parse pattern) ps before after) :
    captures nd pattern (before ++ (ps.flatten ++ after)) ≠ none :=
  search_complete (before := []) (by simpa using h)

/-- **C134**: of the ways to match from one position, the one is taken in which a repetition is as long as possible. -/
theorem C134_longest_repetition (nd : Char → Bool) (c : Cls) (toks : List Tok) (caps : List Text) (pos : Nat) (s : Text) (o : Option Text) (res : List Text) :
    run nd (.star c :: toks) caps pos s o = some res ↔
      ∃ n, n ≤ (s.takeWhile (c.has nd)).length ∧ run nd toks caps (pos + n) (s.drop n) (o.map (· ++ s.take n)) = some res ∧
        ∀ m, n < m → m ≤ (s.takeWhile (c.has nd)).length → run nd toks caps (pos + m) (s.drop m) (o.map (· ++ s.take m)) = none := by
  rw [run]
  exact greedy_eq_some

/-- **C134**: a line of a gcmd file is read as the regular expressions of the code read it. -/
theorem C134_gcmd (nd : Char → Bool) (line : Text) : gcmdLine nd line = Gcmd.parseLine nd line := by
  have e1 : captures nd addEdgeRe line = (matchTwo nd Gcmd.kwAddEdge line).map fun p => [p.1, p.2] := two_eq Gcmd.kwAddEdge line
  have e2 : captures nd addVertexRe line = (matchOne nd Gcmd.kwAddVertex line).map fun d => [d] := one_eq Gcmd.kwAddVertex line
  have e3 : captures nd removeEdgeRe line = (matchTwo nd Gcmd.kwRemoveEdge line).map fun p => [p.1, p.2] := two_eq Gcmd.kwRemoveEdge line
  have e4 : captures nd removeVertexRe line = (matchOne nd Gcmd.kwRemoveVertex line).map fun d => [d] := one_eq Gcmd.kwRemoveVertex line
  unfold gcmdLine Gcmd.parseLine
  rw [e1, e2, e3, e4]
  cases matchTwo nd Gcmd.kwAddEdge line with
  | some p => rfl
  | none =>
    cases matchOne nd Gcmd.kwAddVertex line with
    | some p => rfl
    | none =>
      cases matchTwo nd Gcmd.kwRemoveEdge line with
      | some p => rfl
      | none => cases matchOne nd Gcmd.kwRemoveVertex line <;> rfl

/-- **C134**: a line of a TGF file is read as the regular expressions of the code read it. -/
theorem C134_tgf (nd : Char → Bool) (line : Text) : tgfLine nd line = Tgf.parseLine nd line := by
  have e1 : (captures nd edgeRe line).map (fun l => l.take 2) = (Tgf.matchEdge nd line).map fun p => [p.1, p.2] := edge_eq line
  have e2 : (captures nd vertexRe line).map (fun l => l.take 1) = (Tgf.matchVertex nd line).map fun d => [d] := vertex_eq line
  unfold tgfLine Tgf.parseLine
  cases hp : Tgf.matchEdge nd line with
  | some p =>
    rw [hp] at e1
    cases hc : captures nd edgeRe line with
    | none => rw [hc] at e1; cases e1
    | some l =>
      rw [hc] at e1
      rcases l with _ | ⟨a, _ | ⟨b, l⟩⟩
      · cases e1
      · cases e1
      · cases e1; rfl
  | none =>
    rw [hp] at e1
    have hc : captures nd edgeRe line = none := by simpa using e1
    rw [hc]
    cases hp : Tgf.matchVertex nd line with
    | some p =>
      rw [hp] at e2
      cases hc : captures nd vertexRe line with
      | none => rw [hc] at e2; cases e2
      | some l =>
        rw [hc] at e2
        rcases l with _ | ⟨a, l⟩
        · cases e2
        · cases e2; rfl
    | none =>
      rw [hp] at e2
      have hc : captures nd vertexRe line = none := by simpa using e2
      rw [hc]

/-- **C134**: so it is for whole files, of both formats. -/
theorem C134_files (nd : Char → Bool) (content : Text) :
    Format.read (gcmdLine nd) content = Gcmd.read nd content ∧ Format.read (tgfLine nd) content = Tgf.read nd content ∧
    Format.readAsCommands (gcmdLine nd) content = Gcmd.readAsCommands nd content ∧
    Format.readAsCommands (tgfLine nd) content = Tgf.readAsCommands nd content := by
  have h1 : gcmdLine nd = Gcmd.parseLine nd := funext fun l => C134_gcmd nd l
  have h2 : tgfLine nd = Tgf.parseLine nd := funext fun l => C134_tgf nd l
  rw [h1, h2]
  exact ⟨rfl, rfl, rfl, rfl⟩

/-- **C134**: the regular expressions of the gcmd format accept exactly the lines of the documented grammar, and those with a number that is
too large or not written in ASCII digits make the program panic. -/
theorem C134_grammar (nd : Char → Bool) (line : Text) :
    (∀ c, gcmdLine nd line = .done (.ok c) ↔ GcmdSyntax line c) ∧
    (gcmdLine nd line = .panicked ↔ ∃ caps, GcmdRegex nd line caps ∧ ∃ d ∈ caps, ¬ IsU64 d) := by
  rw [C134_gcmd]
  exact ⟨fun c => C11_accepts_exactly_the_grammar nd line c, gcmd_parseLine_panicked⟩

/-! ### Cases -/

/-- What `Regex::new` makes of a pattern of the code. -/
example : parse addVertexRe = [.bol, .one (.lit 'A'), .one (.lit 'd'), .one (.lit 'd'), .one (.lit 'V'), .one (.lit 'e'), .one (.lit 'r'), .one (.lit 't'),
    .one (.lit 'e'), .one (.lit 'x'), .one (.lit ' '), .opn, .plus .digit, .cls, .eol] := by decide

example : captures (fun _ => false) addEdgeRe "AddEdge 7 \t 12".toList = some ["7".toList, "12".toList] := by decide +kernel
example : captures (fun _ => false) addEdgeRe " AddEdge 7 12".toList = none := by decide +kernel
example : captures (fun _ => false) addEdgeRe "AddEdge 7 12 ".toList = none := by decide +kernel
example : captures (fun _ => false) edgeRe "7 12 label".toList = some ["7".toList, "12".toList, " label".toList] := by decide +kernel

/-- A pattern without `^` is searched for; the repetitions are as long as possible and give characters back when the rest needs them. -/
example : captures (fun _ => false) "(\\d+)2".toList "x1222y".toList = some ["122".toList] := by decide +kernel

/-- The cut of that line, by `C134_search_is_right`. -/
example : ∃ before ps after, "x1222y".toList = before ++ (ps.flatten ++ after) ∧ Fits (fun _ => false) (parse "(\\d+)2".toList) ps before after ∧
    ["122".toList] = groups none (parse "(\\d+)2".toList) ps := by
  obtain ⟨before, ps, after, h1, h2, h3, _⟩ := C134_search_is_right (fun _ => false) "(\\d+)2".toList "x1222y".toList (cap := ["122".toList]) (by decide +kernel)
  exact ⟨before, ps, after, h1, h2, h3⟩

/-- A match that is not the longest one is enough for `C134_search_is_complete`. -/
example : captures (fun _ => false) "(\\d+)2".toList "x1222y".toList ≠ none := by
  have h : Fits (fun _ => false) (parse "(\\d+)2".toList) [[], ['1'], [], ['2']] ['x'] ['2', '2', 'y'] :=
    .cons rfl (.cons ⟨by decide, by decide⟩ (.cons rfl (.cons ⟨'2', rfl, by decide⟩ .nil)))
  exact C134_search_is_complete (fun _ => false) "(\\d+)2".toList h

example : run (fun _ => false) [.star .digit, .one (.lit '2')] [] 0 "122".toList none = some [] := by
  rw [C134_longest_repetition]
  exact ⟨2, by decide, by decide, fun m h1 h2 => by
    obtain rfl : m = 3 := by
      have : ("122".toList.takeWhile (Cls.digit.has fun _ => false)).length = 3 := by decide
      omega
    decide⟩

example : gcmdLine (fun _ => false) "RemoveEdge 1  2".toList = .done (.ok (.RemoveEdge 1 2)) := by decide +kernel
example : gcmdLine (fun _ => false) "AddVertex 18446744073709551616".toList = .panicked := by decide +kernel
example : tgfLine (fun _ => false) "3 4 five".toList = .done (.ok (.AddEdge 3 4)) := by decide +kernel
example : Format.readAsCommands (gcmdLine fun _ => false) "# a graph\nAddVertex 5\n\nAddEdge 1 2\n".toList = .done (.ok [.AddVertex 5, .AddEdge 1 2]) := by
  decide +kernel

end Regex
end GC
