/-
Property C66: attribute mappings.
-/
import Verif.Proofs.Attribute
namespace GC
open AttributeCommand
variable {V : Type}

/-- C66: after any commands, looking up a vertex gives the value added last and not removed since, if there is one. -/
theorem C66_vertex_lookup (name : Text) (cs : List (AttributeCommand V)) (v : VertexId) :
    (∀ x, (applyVertexCommandsTo cs (.new name)).asClosure v = some x ↔ VertexHas cs v x) ∧
    ((applyVertexCommandsTo cs (.new name)).asClosure v = none ↔ ¬ ∃ x, VertexHas cs v x) := by
  have h := vertex_lookup name cs v
  refine ⟨h, ?_⟩
  rw [← not_iff_not, not_not, ← ne_eq, Option.ne_none_iff_exists']
  exact exists_congr h

/-- C66: the same for edges. -/
theorem C66_edge_lookup (name : Text) (cs : List (AttributeCommand V)) (e : Edge) :
    (∀ x, (applyEdgeCommandsTo cs (.new name)).asClosure e = some x ↔ EdgeHas cs e x) ∧
    ((applyEdgeCommandsTo cs (.new name)).asClosure e = none ↔ ¬ ∃ x, EdgeHas cs e x) := by
  have h := edge_lookup name cs e
  refine ⟨h, ?_⟩
  rw [← not_iff_not, not_not, ← ne_eq, Option.ne_none_iff_exists']
  exact exists_congr h

/-- C66: with a default value, looking up gives the value of the history, and the default exactly for keys without value. -/
theorem C66_defaults (name : Text) (cs : List (AttributeCommand V)) (d : V) :
    (∀ v x, VertexHas cs v x → (applyVertexCommandsTo cs (.new name)).asClosureWithDefaults d v = x) ∧
    (∀ v, (¬ ∃ x, VertexHas cs v x) → (applyVertexCommandsTo cs (.new name)).asClosureWithDefaults d v = d) ∧
    (∀ e x, EdgeHas cs e x → (applyEdgeCommandsTo cs (.new name)).asClosureWithDefaults d e = x) ∧
    (∀ e, (¬ ∃ x, EdgeHas cs e x) → (applyEdgeCommandsTo cs (.new name)).asClosureWithDefaults d e = d) := by
  refine ⟨fun v x h => ?_, fun v h => ?_, fun e x h => ?_, fun e h => ?_⟩
  · have := (vertex_lookup name cs v x).2 h
    simp [AttributeMapping.asClosureWithDefaults, this]
  · have : HMap.get? (applyVertexCommandsTo cs (.new name)).mapping v = none := (C66_vertex_lookup name cs v).2.2 h
    simp [AttributeMapping.asClosureWithDefaults, this]
  · have := (edge_lookup name cs e x).2 h
    simp [AttributeMapping.asClosureWithDefaults, this]
  · have : HMap.get? (applyEdgeCommandsTo cs (.new name)).mapping e = none := (C66_edge_lookup name cs e).2.2 h
    simp [AttributeMapping.asClosureWithDefaults, this]

/-- C66: adding reports success, removing reports whether there was a value, and commands of the other kind report failure and change
nothing. The name never changes. -/
theorem C66_reports (name : Text) (cs : List (AttributeCommand V)) (c : AttributeCommand V) :
    ((applyVertexCommandTo c (applyVertexCommandsTo cs (.new name))).1 = true ↔
      (∃ v x, c = .AddVertexAttr v x) ∨ ∃ v x, c = .RemoveVertexAttr v ∧ VertexHas cs v x) ∧
    ((applyEdgeCommandTo c (applyEdgeCommandsTo cs (.new name))).1 = true ↔
      (∃ a b x, c = .AddEdgeAttr a b x) ∨ ∃ a b x, c = .RemoveEdgeAttr a b ∧ EdgeHas cs ⟨a, b⟩ x) ∧
    ((∀ v, ¬ TouchesVertex v c) → (applyVertexCommandTo c (applyVertexCommandsTo cs (.new name))).2 = applyVertexCommandsTo cs (.new name)) ∧
    ((∀ e, ¬ TouchesEdge e c) → (applyEdgeCommandTo c (applyEdgeCommandsTo cs (.new name))).2 = applyEdgeCommandsTo cs (.new name)) ∧
    (applyVertexCommandsTo cs (.new name)).name = name ∧ (applyEdgeCommandsTo cs (.new name)).name = name := by
  refine ⟨?_, ?_, ?_, ?_, ?_, ?_⟩
  · cases c with
    | RemoveVertexAttr w =>
      simp only [applyVertexCommandTo, AttributeMapping.remove, Option.isSome_iff_exists, vertex_lookup, reduceCtorEq, exists_false,
        AttributeCommand.RemoveVertexAttr.injEq, false_or]
      exact ⟨fun ⟨x, h⟩ => ⟨w, x, rfl, h⟩, fun ⟨v, x, e, h⟩ => ⟨x, e ▸ h⟩⟩
    | AddVertexAttr w y => simp [applyVertexCommandTo, AttributeMapping.add]
    | AddEdgeAttr a b y => simp [applyVertexCommandTo]
    | RemoveEdgeAttr a b => simp [applyVertexCommandTo]
  · cases c with
    | RemoveEdgeAttr p q =>
      simp only [applyEdgeCommandTo, AttributeMapping.remove, Option.isSome_iff_exists, edge_lookup, reduceCtorEq, exists_false,
        AttributeCommand.RemoveEdgeAttr.injEq, false_or]
      exact ⟨fun ⟨x, h⟩ => ⟨p, q, x, ⟨rfl, rfl⟩, h⟩, fun ⟨a, b, x, ⟨e1, e2⟩, h⟩ => ⟨x, e1 ▸ e2 ▸ h⟩⟩
    | AddEdgeAttr a b y => simp [applyEdgeCommandTo, AttributeMapping.add]
    | AddVertexAttr w y => simp [applyEdgeCommandTo]
    | RemoveVertexAttr w => simp [applyEdgeCommandTo]
  · intro h
    cases c with
    | AddVertexAttr w y => exact absurd (.inl ⟨y, rfl⟩) (h w)
    | RemoveVertexAttr w => exact absurd (.inr rfl) (h w)
    | AddEdgeAttr a b y => rfl
    | RemoveEdgeAttr a b => rfl
  · intro h
    cases c with
    | AddEdgeAttr a b y => exact absurd (.inl ⟨y, rfl⟩) (h ⟨a, b⟩)
    | RemoveEdgeAttr a b => exact absurd (.inr rfl) (h ⟨a, b⟩)
    | AddVertexAttr w y => rfl
    | RemoveVertexAttr w => rfl
  · induction cs using List.reverseRecOn with
    | nil => rfl
    | append_singleton cs c ih =>
      unfold applyVertexCommandsTo at *
      rw [List.foldl_append, List.foldl_cons, List.foldl_nil]
      cases c <;> exact ih
  · induction cs using List.reverseRecOn with
    | nil => rfl
    | append_singleton cs c ih =>
      unfold applyEdgeCommandsTo at *
      rw [List.foldl_append, List.foldl_cons, List.foldl_nil]
      cases c <;> exact ih

/-- C66: the ready-made empty mappings are called "empty" and map nothing. -/
theorem C66_empty_mappings (v : VertexId) (e : Edge) (d : V) :
    (noVertexMapping : AttributeMapping VertexId V).name = ['e', 'm', 'p', 't', 'y'] ∧
    (noEdgeMapping : AttributeMapping Edge V).name = ['e', 'm', 'p', 't', 'y'] ∧
    (noVertexMapping : AttributeMapping VertexId V).asClosure v = none ∧ (noEdgeMapping : AttributeMapping Edge V).asClosure e = none ∧
    (noVertexMapping : AttributeMapping VertexId V).asClosureWithDefaults d v = d ∧
    (noEdgeMapping : AttributeMapping Edge V).asClosureWithDefaults d e = d := by
  have h : "empty".toList = ['e', 'm', 'p', 't', 'y'] := by decide +kernel
  exact ⟨h, h, rfl, rfl, rfl, rfl⟩

/-- Example history. -/
def exAttrs : List (AttributeCommand Nat) :=
  [.AddVertexAttr 1 10, .AddEdgeAttr 1 2 5, .AddVertexAttr 1 11, .RemoveVertexAttr 2, .AddVertexAttr 2 20, .RemoveEdgeAttr 2 1]

example : VertexHas exAttrs 1 11 ∧ ¬ (∃ x, VertexHas exAttrs 3 x) ∧ EdgeHas exAttrs ⟨1, 2⟩ 5 := by
  refine ⟨(C66_vertex_lookup [] exAttrs 1).1 11 |>.1 (by decide), (C66_vertex_lookup [] exAttrs 3).2.1 (by decide),
    (C66_edge_lookup [] exAttrs ⟨1, 2⟩).1 5 |>.1 (by decide)⟩
example : (applyVertexCommandTo (.RemoveVertexAttr 2) (applyVertexCommandsTo exAttrs (.new []))).1 = true ∧
    (applyVertexCommandTo (.RemoveVertexAttr 9) (applyVertexCommandsTo exAttrs (.new []))).1 = false ∧
    (applyVertexCommandsTo exAttrs (.new [])).asClosureWithDefaults 7 9 = 7 := by decide

end GC
