/-
The texts of the error messages of core/src/constraint/checker.rs and core/src/format/; the functions that return them
(`Model/Constraint.lean`, `Model/Format.lean`) give the values the texts are made from.
-/
import Verif.Model.Main
namespace GC
open Text Main

/-- std `Debug` of a `Vec`: the items in square brackets, separated by a comma and a space. Used at core/src/constraint/checker.rs 59, 87, 127-129,
160-162. -/
def debugItems {α : Type} (f : α → Text) : List α → Text
  | [] => []
  | [a] => f a
  | a :: l => f a ++ ", ".toList ++ debugItems f l

/-- std `Debug` of a `Vec`. Used at core/src/constraint/checker.rs 59, 87, 127-129, 160-162. -/
def debugVec {α : Type} (f : α → Text) (l : List α) : Text := ['['] ++ debugItems f l ++ [']']

/-- The messages of core/src/constraint/checker.rs 59, 87, 104-106, 127, 129, 132-135, 160, 162, 165-168. The offending vertices and edges
come out of a hash set: each appears once. (Their order, unspecified in the code, is the order of the list here.) -/
def Checker.ValidateError.message : ValidateError → Text
  | .vertices vs => "Incompatible set of constraints leading to vertices ".toList ++ debugVec debugVertex vs.eraseDups ++
      " to be included and excluded at the same time.".toList
  | .edges es => "Incompatible set of constraints leading to edges ".toList ++ debugVec debugEdge es.eraseDups ++
      " to be included and excluded at the same time.".toList
  | .cycle => "Incompatible set of constraints about cycle inclusion and exclusion.".toList
  | .severalMinLength l => "Incompatible set of MinLength constraints: ".toList ++ debugVec GcCycle.showNat l ++
      " were defined, having only one is possible".toList
  | .severalMaxLength l => "Incompatible set of MaxLength constraints: ".toList ++ debugVec GcCycle.showNat l ++
      " were defined, having only one is possible".toList
  | .minMaxLength min max => "Incompatible set of min/max length constraints: min=".toList ++ GcCycle.showNat min ++ ", max=".toList ++
      GcCycle.showNat max
  | .severalMinScore l => "Incompatible set of MinScore constraints: ".toList ++ debugVec showInt l ++
      " were defined, having only one is possible".toList
  | .severalMaxScore l => "Incompatible set of MaxScore constraints: ".toList ++ debugVec showInt l ++
      " were defined, having only one is possible".toList
  | .minMaxScore min max => "Incompatible set of min/max score constraints: min=".toList ++ showInt min ++ ", max=".toList ++ showInt max

/-- core/src/format/gcmd.rs 66 and core/src/format/tgf.rs 43. -/
def Format.parseMessage (line : Text) : Text := "Couldn't parse '".toList ++ line ++ ['\'']

/-- core/src/format/utils.rs 46. -/
def Format.ReadError.message : ReadError → Text
  | .atLine n line => "Error at line ".toList ++ GcCycle.showNat n ++ ": ".toList ++ parseMessage line

end GC
