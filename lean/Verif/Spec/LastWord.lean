/-
Specification vocabulary for C145: what a batch of graph commands does to one vertex or one edge.
-/
import Verif.Spec.Graph
namespace GC

/-- The command makes sure that `v` is in the graph. -/
def AddsVertex (v : VertexId) (c : GraphCommand) : Prop :=
  c = .AddVertex v ∨ ∃ w, c = .AddEdge v w ∨ c = .AddEdge w v

/-- The command makes sure that `e` is in the graph. -/
def AddsEdge (e : Edge) (c : GraphCommand) : Prop := c = .AddEdge e.src e.dst

/-- The command takes `v` out of the graph. -/
def DropsVertex (v : VertexId) (c : GraphCommand) : Prop := c = .RemoveVertex v

/-- The command takes `e` out of the graph. -/
def DropsEdge (e : Edge) (c : GraphCommand) : Prop :=
  c = .RemoveEdge e.src e.dst ∨ c = .RemoveVertex e.src ∨ c = .RemoveVertex e.dst

/-- Of the commands that add or drop a thing the last one adds it; if there is none, the thing was there `before`. -/
def LastWord (adds drops : GraphCommand → Prop) (before : Prop) (cs : List GraphCommand) : Prop :=
  (∃ pre c post, cs = pre ++ c :: post ∧ adds c ∧ ∀ d ∈ post, ¬ drops d) ∨ (before ∧ ∀ d ∈ cs, ¬ drops d)

end GC
