/-
Model of core/src/attribute/mapping.rs and core/src/attribute/attribute_command.rs.
-/
import Verif.Model.Text
import Verif.Model.Graph
namespace GC

/-- core/src/attribute/mapping.rs 23-26. -/
structure AttributeMapping (K V : Type) where
  name : Text
  mapping : HMap K V

namespace AttributeMapping
variable {K V : Type} [DecidableEq K]

/-- core/src/attribute/mapping.rs 29-34. -/
def new (name : Text) : AttributeMapping K V := ⟨name, []⟩

/-- core/src/attribute/mapping.rs 40-43. -/
def add (m : AttributeMapping K V) (e : K) (value : V) : Bool × AttributeMapping K V := (true, ⟨m.name, HMap.insert m.mapping e value⟩)

/-- core/src/attribute/mapping.rs 45-47. -/
def remove (m : AttributeMapping K V) (e : K) : Bool × AttributeMapping K V :=
  ((HMap.get? m.mapping e).isSome, ⟨m.name, HMap.remove m.mapping e⟩)

/-- core/src/attribute/mapping.rs 51-53. -/
def asClosure (m : AttributeMapping K V) : K → Option V := fun e => HMap.get? m.mapping e

/-- core/src/attribute/mapping.rs 55-57. -/
def asClosureWithDefaults (m : AttributeMapping K V) (default_value : V) : K → V := fun e => (HMap.get? m.mapping e).getD default_value

end AttributeMapping

/-- core/src/attribute/mapping.rs 12-14. -/
def noVertexMapping {V : Type} : AttributeMapping VertexId V := .new "empty".toList

/-- core/src/attribute/mapping.rs 17-19. -/
def noEdgeMapping {V : Type} : AttributeMapping Edge V := .new "empty".toList

/-- core/src/attribute/attribute_command.rs 5-10. -/
inductive AttributeCommand (T : Type) where
  | AddVertexAttr (v : VertexId) (value : T)
  | RemoveVertexAttr (v : VertexId)
  | AddEdgeAttr (v1 v2 : VertexId) (value : T)
  | RemoveEdgeAttr (v1 v2 : VertexId)

namespace AttributeCommand
variable {V : Type}

/-- core/src/attribute/attribute_command.rs 15-25. -/
def applyVertexCommandTo (command : AttributeCommand V) (mapping : AttributeMapping VertexId V) : Bool × AttributeMapping VertexId V :=
  match command with
  | AddVertexAttr v value => mapping.add v value
  | RemoveVertexAttr v => mapping.remove v
  | _ => (false, mapping)

/-- core/src/attribute/attribute_command.rs 27-34. -/
def applyVertexCommandsTo (commands : List (AttributeCommand V)) (mapping : AttributeMapping VertexId V) : AttributeMapping VertexId V :=
  commands.foldl (fun m c => (applyVertexCommandTo c m).2) mapping

/-- core/src/attribute/attribute_command.rs 38-48. -/
def applyEdgeCommandTo (command : AttributeCommand V) (mapping : AttributeMapping Edge V) : Bool × AttributeMapping Edge V :=
  match command with
  | AddEdgeAttr v1 v2 value => mapping.add ⟨v1, v2⟩ value
  | RemoveEdgeAttr v1 v2 => mapping.remove ⟨v1, v2⟩
  | _ => (false, mapping)

/-- core/src/attribute/attribute_command.rs 50-57. -/
def applyEdgeCommandsTo (commands : List (AttributeCommand V)) (mapping : AttributeMapping Edge V) : AttributeMapping Edge V :=
  commands.foldl (fun m c => (applyEdgeCommandTo c m).2) mapping

end AttributeCommand
end GC
