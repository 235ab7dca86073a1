/-
The first part of the text that gc-csp prints: a line for every requirement that the options make.
-/
import Verif.Spec.Main
namespace GC
namespace Main
open Text Args

/-- A number in decimal notation, with a minus sign if it is negative. -/
def DecimalInt (t : Text) (i : Int) : Prop := (0 ≤ i ∧ Decimal t i.toNat) ∨ (i < 0 ∧ ∃ ds, t = '-' :: ds ∧ Decimal ds (-i).toNat)

/-- Vertex ids as they are printed in a requirement. -/
inductive VertexIds : List VertexId → Text → Prop where
  | nil : VertexIds [] []
  | one {v k} : Decimal k v.id.toNat → VertexIds [v] ("VertexId(".toList ++ k ++ [')'])
  | cons {v l k rest} : l ≠ [] → Decimal k v.id.toNat → VertexIds l rest →
      VertexIds (v :: l) ("VertexId(".toList ++ k ++ "), ".toList ++ rest)

/-- The lines for an option: none if it is not given, or given with a value that is not valid. -/
def Part {α β : Type} (given : Option α) (Valid : α → β → Prop) (Lines : β → List Text → Prop) (out : List Text) : Prop :=
  (∃ x y, given = some x ∧ Valid x y ∧ Lines y out) ∨ (∀ x y, given = some x → ¬ Valid x y) ∧ out = []

/-- A line for every vertex. -/
def EachVertex (before after : String) (vs : List VertexId) (out : List Text) : Prop :=
  List.Forall₂ (fun v w => ∃ k, Decimal k v.id.toNat ∧ w = before.toList ++ k ++ after.toList) vs out
/-- A line with the vertices in order. -/
def AllVertices (vs : List VertexId) (out : List Text) : Prop :=
  ∃ ids, VertexIds vs ids ∧ out = ["OrderedVertices([".toList ++ ids ++ "])".toList]
/-- Lines with a number each. -/
def Numbers (names : List String) (n : Nat) (out : List Text) : Prop := ∃ k, Decimal k n ∧ out = names.map fun s => s.toList ++ '(' :: k ++ [')']
/-- Lines with a score each. -/
def Scores (names : List String) (i : Int) (out : List Text) : Prop := ∃ k, DecimalInt k i ∧ out = names.map fun s => s.toList ++ '(' :: k ++ [')']
/-- A line if the flag is given. -/
def Flag (flag : Bool) (t : String) : List Text := if flag then [t.toList] else []

/-- The first part of the text: a headline, and the requirements of all options with valid values, in a fixed order. `max-score` makes one
more minimum. -/
def Announces (a : CspArgs) (t : Text) : Prop :=
  ∃ l1 l2 l3 l4 l5 l6 l7 l8 l9,
    Part a.include_ ArgIds (EachVertex "ContainsVertex(VertexId(" "))") l1 ∧
    Part a.exclude ArgIds (EachVertex "Not(ContainsVertex(VertexId(" ")))") l2 ∧
    Part a.ordered ArgIds AllVertices l3 ∧
    Part a.minLength ArgNat (Numbers ["MinLength"]) l4 ∧
    Part a.maxLength ArgNat (Numbers ["MaxLength"]) l5 ∧
    Part a.exactLength ArgNat (Numbers ["MinLength", "MaxLength"]) l6 ∧
    Part a.minScore ArgInt (Scores ["MinScore"]) l7 ∧
    Part a.maxScore ArgInt (Scores ["MinScore"]) l8 ∧
    Part a.exactScore ArgInt (Scores ["MinScore", "MaxScore"]) l9 ∧
    t = ("Constraint that will be applied to search are: ".toList :: (l1 ++ l2 ++ l3 ++ Flag a.includeCycle "ContainsCycle" ++
      Flag a.noCycle "Not(ContainsCycle)" ++ l4 ++ l5 ++ l6 ++ l7 ++ l8 ++ l9)).flatMap (· ++ ['\n'])

end Main
end GC
