/-
Specification of attribute mappings: what a history of commands means.
-/
import Verif.Model.Attribute
namespace GC
variable {V : Type}

/-- The command sets or removes the attribute of the vertex `v`. -/
def TouchesVertex (v : VertexId) (c : AttributeCommand V) : Prop := (∃ x, c = .AddVertexAttr v x) ∨ c = .RemoveVertexAttr v

/-- The command sets or removes the attribute of the edge `e`. -/
def TouchesEdge (e : Edge) (c : AttributeCommand V) : Prop := (∃ x, c = .AddEdgeAttr e.src e.dst x) ∨ c = .RemoveEdgeAttr e.src e.dst

/-- In the history `cs`, the value `x` was added to the vertex `v`, and neither replaced nor removed since. -/
def VertexHas (cs : List (AttributeCommand V)) (v : VertexId) (x : V) : Prop :=
  ∃ pre post, cs = pre ++ .AddVertexAttr v x :: post ∧ ∀ c ∈ post, ¬ TouchesVertex v c

/-- In the history `cs`, the value `x` was added to the edge `e`, and neither replaced nor removed since. -/
def EdgeHas (cs : List (AttributeCommand V)) (e : Edge) (x : V) : Prop :=
  ∃ pre post, cs = pre ++ .AddEdgeAttr e.src e.dst x :: post ∧ ∀ c ∈ post, ¬ TouchesEdge e c

end GC
