/-
Specification of the file formats: numerals, command lines, comments, independent of the recognisers of the model.
-/
import Verif.Model.Format
namespace GC
open Text Format

/-- The ASCII digits with their values. -/
def DigitOf (c : Char) (d : Nat) : Prop :=
  (c, d) ∈ [('0', 0), ('1', 1), ('2', 2), ('3', 3), ('4', 4), ('5', 5), ('6', 6), ('7', 7), ('8', 8), ('9', 9)]

/-- `Numeral ds n`: the ASCII digit string `ds` (leading zeros allowed) denotes the number `n`. -/
inductive Numeral : Text → Nat → Prop where
  | digit {c : Char} {d : Nat} : DigitOf c d → Numeral [c] d
  | snoc {ds : Text} {n : Nat} {c : Char} {d : Nat} : Numeral ds n → DigitOf c d → Numeral (ds ++ [c]) (10 * n + d)

/-- White space: the code points with the Unicode property White_Space. -/
def White (c : Char) : Prop :=
  c.toNat ∈ [9, 10, 11, 12, 13, 32, 133, 160, 5760, 8192, 8193, 8194, 8195, 8196, 8197, 8198, 8199, 8200, 8201, 8202, 8232, 8233, 8239, 8287,
    12288]
instance (c : Char) : Decidable (White c) := inferInstanceAs (Decidable (_ ∈ _))

/-- A non-empty sequence of white space. -/
def Blank (w : Text) : Prop := w ≠ [] ∧ ∀ c ∈ w, White c

/-- A non-empty sequence of characters of the regular expression class `\d`. -/
def Digits (nd : Char → Bool) (s : Text) : Prop := s ≠ [] ∧ ∀ c ∈ s, isDigit nd c = true

/-- The digit string is a `u64` literal. -/
def IsU64 (s : Text) : Prop := ∃ n, n < 2 ^ 64 ∧ Numeral s n

/-- The digit string denotes the vertex id `v`. -/
def DenotesId (s : Text) (v : VertexId) : Prop := Numeral s v.id.toNat

/-- Documented grammar of gcmd lines (core/src/format/gcmd.rs 5-11), with its meaning. -/
inductive GcmdSyntax : Text → GraphCommand → Prop where
  | addVertex {d v} : DenotesId d v → GcmdSyntax (['A', 'd', 'd', 'V', 'e', 'r', 't', 'e', 'x', ' '] ++ d) (.AddVertex v)
  | removeVertex {d v} : DenotesId d v → GcmdSyntax (['R', 'e', 'm', 'o', 'v', 'e', 'V', 'e', 'r', 't', 'e', 'x', ' '] ++ d) (.RemoveVertex v)
  | addEdge {d1 w d2 a b} : DenotesId d1 a → Blank w → DenotesId d2 b →
      GcmdSyntax (['A', 'd', 'd', 'E', 'd', 'g', 'e', ' '] ++ d1 ++ w ++ d2) (.AddEdge a b)
  | removeEdge {d1 w d2 a b} : DenotesId d1 a → Blank w → DenotesId d2 b →
      GcmdSyntax (['R', 'e', 'm', 'o', 'v', 'e', 'E', 'd', 'g', 'e', ' '] ++ d1 ++ w ++ d2) (.RemoveEdge a b)

/-- The four regular expressions of core/src/format/gcmd.rs 45-48 with the digit strings they capture. -/
inductive GcmdRegex (nd : Char → Bool) : Text → List Text → Prop where
  | addVertex {d} : Digits nd d → GcmdRegex nd (['A', 'd', 'd', 'V', 'e', 'r', 't', 'e', 'x', ' '] ++ d) [d]
  | removeVertex {d} : Digits nd d → GcmdRegex nd (['R', 'e', 'm', 'o', 'v', 'e', 'V', 'e', 'r', 't', 'e', 'x', ' '] ++ d) [d]
  | addEdge {d1 w d2} : Digits nd d1 → Blank w → Digits nd d2 →
      GcmdRegex nd (['A', 'd', 'd', 'E', 'd', 'g', 'e', ' '] ++ d1 ++ w ++ d2) [d1, d2]
  | removeEdge {d1 w d2} : Digits nd d1 → Blank w → Digits nd d2 →
      GcmdRegex nd (['R', 'e', 'm', 'o', 'v', 'e', 'E', 'd', 'g', 'e', ' '] ++ d1 ++ w ++ d2) [d1, d2]

/-- `c'` is `c` with the decimal digits of its last id cut off somewhere (at least one digit remains). -/
inductive Truncated : GraphCommand → GraphCommand → Prop where
  | addVertex {v v' d} : d <+: showId v → DenotesId d v' → Truncated (.AddVertex v) (.AddVertex v')
  | removeVertex {v v' d} : d <+: showId v → DenotesId d v' → Truncated (.RemoveVertex v) (.RemoveVertex v')
  | addEdge {a b b' d} : d <+: showId b → DenotesId d b' → Truncated (.AddEdge a b) (.AddEdge a b')
  | removeEdge {a b b' d} : d <+: showId b → DenotesId d b' → Truncated (.RemoveEdge a b) (.RemoveEdge a b')

/-- A label of a TGF line: no line feed, and not beginning with a digit. -/
def IsLabel (nd : Char → Bool) (l : Text) : Prop :=
  (∀ c ∈ l, c ≠ '\n') ∧ ∀ c, l.head? = some c → isDigit nd c = false

/-- The text begins with white space followed by a digit. -/
def LooksLikeSecondId (nd : Char → Bool) (l : Text) : Prop :=
  ∃ w c rest, l = w ++ c :: rest ∧ Blank w ∧ isDigit nd c = true

/-- A comment: the first character that is not white space is `#`. -/
def CommentLine (l : Text) : Prop := ∃ w rest, l = w ++ '#' :: rest ∧ ∀ c ∈ w, White c

/-- A line that is read as a command. -/
def ActiveLine (l : Text) : Prop := l ≠ [] ∧ ¬ CommentLine l

/-- A line as it can be written in a file: without line feed, and not ending in a carriage return. -/
def PlainLine (l : Text) : Prop := (∀ c ∈ l, c ≠ '\n') ∧ l.getLast? ≠ some '\r'

/-- The text is empty or ends with a line feed. -/
def NewlineTerminated (s : Text) : Prop := s = [] ∨ s.getLast? = some '\n'

end GC
