/-
Specification of the lines of TGF files (core/src/format/tgf.rs).
-/
import Verif.Spec.Format
namespace GC
open Text Format

/-- Meaning of a TGF line: an id and a label that does not look like a second id, or two ids and a label. -/
inductive TgfSyntax (nd : Char → Bool) : Text → GraphCommand → Prop where
  | vertex {d label v} : DenotesId d v → IsLabel nd label → ¬ LooksLikeSecondId nd label → TgfSyntax nd (d ++ label) (.AddVertex v)
  | edge {d1 w d2 label a b} : DenotesId d1 a → Blank w → DenotesId d2 b → IsLabel nd label →
      TgfSyntax nd (d1 ++ w ++ d2 ++ label) (.AddEdge a b)

/-- The shape of a TGF line, with the digit strings at the places of the ids. They need not be numbers below 2^64. -/
inductive TgfShape (nd : Char → Bool) : Text → List Text → Prop where
  | vertex {d label} : Digits nd d → IsLabel nd label → ¬ LooksLikeSecondId nd label → TgfShape nd (d ++ label) [d]
  | edge {d1 w d2 label} : Digits nd d1 → Blank w → Digits nd d2 → IsLabel nd label → TgfShape nd (d1 ++ w ++ d2 ++ label) [d1, d2]

end GC
