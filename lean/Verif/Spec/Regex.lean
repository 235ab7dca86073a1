/-
What it means that a pattern matches, without a search.
-/
import Verif.Model.Regex
namespace GC
namespace Regex

/-- `Accepts nd before piece after t`: the part `t` of a pattern accepts `piece`, which stands between `before` and `after`. -/
def Accepts (nd : Char → Bool) (before piece after : Text) : Tok → Prop
  | .bol => piece = [] ∧ before = []
  | .eol => piece = [] ∧ after = []
  | .opn => piece = []
  | .cls => piece = []
  | .one c => ∃ x, piece = [x] ∧ c.has nd x = true
  | .plus c => piece ≠ [] ∧ ∀ x ∈ piece, c.has nd x = true
  | .star c => ∀ x ∈ piece, c.has nd x = true

/-- The pieces are accepted, in turn, by the parts of the pattern. -/
inductive Fits (nd : Char → Bool) : List Tok → List Text → Text → Text → Prop where
  | nil {before after : Text} : Fits nd [] [] before after
  | cons {t : Tok} {toks : List Tok} {p : Text} {ps : List Text} {before after : Text} :
      Accepts nd before p (ps.flatten ++ after) t → Fits nd toks ps (before ++ p) after → Fits nd (t :: toks) (p :: ps) before after

/-- The text of the groups: what the parts between a parenthesis and the next closing one have accepted. `o` is the text of the group that is open. -/
def groups : Option Text → List Tok → List Text → List Text
  | _, .opn :: toks, _ :: ps => groups (some []) toks ps
  | o, .cls :: toks, _ :: ps => o.getD [] :: groups none toks ps
  | o, _ :: toks, p :: ps => groups (o.map (· ++ p)) toks ps
  | _, _, _ => []

end Regex
end GC
