/-
Proofs about attribute mappings.
-/
import Verif.Spec.Attribute
import Verif.Proofs.HMap
import Mathlib.Data.List.Induction
namespace GC
open AttributeCommand
variable {V : Type}

theorem vertexHas_concat {cs : List (AttributeCommand V)} {c : AttributeCommand V} {v : VertexId} {x : V} :
    VertexHas (cs ++ [c]) v x ↔ c = .AddVertexAttr v x ∨ (¬ TouchesVertex v c ∧ VertexHas cs v x) := by
  constructor
  · rintro ⟨pre, post, h1, h2⟩
    rcases List.eq_nil_or_concat post with rfl | ⟨post', d, e⟩
    · left
      have := (List.append_inj' h1 (by simp)).2
      simpa using this
    · right
      rw [List.concat_eq_append] at e
      subst e
      have h1' : cs ++ [c] = (pre ++ .AddVertexAttr v x :: post') ++ [d] := by rw [h1]; simp
      obtain ⟨e1, e2⟩ := List.append_inj' h1' (by simp)
      simp only [List.cons.injEq, and_true] at e2
      subst e2
      exact ⟨h2 c (by simp), pre, post', e1, fun d hd => h2 d (by simp [hd])⟩
  · rintro (rfl | ⟨h1, pre, post, rfl, h2⟩)
    · exact ⟨cs, [], rfl, by simp⟩
    · refine ⟨pre, post ++ [c], by simp, ?_⟩
      intro d hd
      rcases List.mem_append.1 hd with hd | hd
      · exact h2 d hd
      · simp only [List.mem_singleton] at hd
        exact hd ▸ h1

theorem edgeHas_concat {cs : List (AttributeCommand V)} {c : AttributeCommand V} {v : Edge} {x : V} :
    EdgeHas (cs ++ [c]) v x ↔ c = .AddEdgeAttr v.src v.dst x ∨ (¬ TouchesEdge v c ∧ EdgeHas cs v x) := by
  constructor
  · rintro ⟨pre, post, h1, h2⟩
    rcases List.eq_nil_or_concat post with rfl | ⟨post', d, e⟩
    · left
      have := (List.append_inj' h1 (by simp)).2
      simpa using this
    · right
      rw [List.concat_eq_append] at e
      subst e
      have h1' : cs ++ [c] = (pre ++ .AddEdgeAttr v.src v.dst x :: post') ++ [d] := by rw [h1]; simp
      obtain ⟨e1, e2⟩ := List.append_inj' h1' (by simp)
      simp only [List.cons.injEq, and_true] at e2
      subst e2
      exact ⟨h2 c (by simp), pre, post', e1, fun d hd => h2 d (by simp [hd])⟩
  · rintro (rfl | ⟨h1, pre, post, rfl, h2⟩)
    · exact ⟨cs, [], rfl, by simp⟩
    · refine ⟨pre, post ++ [c], by simp, ?_⟩
      intro d hd
      rcases List.mem_append.1 hd with hd | hd
      · exact h2 d hd
      · simp only [List.mem_singleton] at hd
        exact hd ▸ h1

theorem vertex_lookup (name : Text) (cs : List (AttributeCommand V)) (v : VertexId) (x : V) :
    HMap.get? (applyVertexCommandsTo cs (.new name)).mapping v = some x ↔ VertexHas cs v x := by
  induction cs using List.reverseRecOn generalizing x with
  | nil =>
    constructor
    · intro h; cases h
    · rintro ⟨pre, post, h, _⟩
      simp at h
  | append_singleton cs c ih =>
    rw [vertexHas_concat, ← ih]
    unfold applyVertexCommandsTo
    rw [List.foldl_append, List.foldl_cons, List.foldl_nil]
    generalize List.foldl (fun m c => (applyVertexCommandTo c m).2) (AttributeMapping.new name : AttributeMapping VertexId V) cs = m
    cases c with
    | AddVertexAttr w y =>
      simp only [applyVertexCommandTo, AttributeMapping.add, HMap.get?_insert, TouchesVertex, AttributeCommand.AddVertexAttr.injEq, reduceCtorEq,
        or_false]
      by_cases h : v = w
      · subst h
        simp
      · simp [h, Ne.symm h]
    | RemoveVertexAttr w =>
      simp only [applyVertexCommandTo, AttributeMapping.remove, HMap.get?_remove, TouchesVertex, AttributeCommand.RemoveVertexAttr.injEq,
        reduceCtorEq, exists_false, false_or]
      by_cases h : v = w
      · subst h
        simp
      · simp [h, Ne.symm h]
    | AddEdgeAttr a b y => simp [applyVertexCommandTo, TouchesVertex]
    | RemoveEdgeAttr a b => simp [applyVertexCommandTo, TouchesVertex]

theorem edge_lookup (name : Text) (cs : List (AttributeCommand V)) (v : Edge) (x : V) :
    HMap.get? (applyEdgeCommandsTo cs (.new name)).mapping v = some x ↔ EdgeHas cs v x := by
  induction cs using List.reverseRecOn generalizing x with
  | nil =>
    constructor
    · intro h; cases h
    · rintro ⟨pre, post, h, _⟩
      simp at h
  | append_singleton cs c ih =>
    rw [edgeHas_concat, ← ih]
    unfold applyEdgeCommandsTo
    rw [List.foldl_append, List.foldl_cons, List.foldl_nil]
    generalize List.foldl (fun m c => (applyEdgeCommandTo c m).2) (AttributeMapping.new name : AttributeMapping Edge V) cs = m
    obtain ⟨p, q⟩ := v
    cases c with
    | AddEdgeAttr a b y =>
      simp only [applyEdgeCommandTo, AttributeMapping.add, HMap.get?_insert, TouchesEdge, AttributeCommand.AddEdgeAttr.injEq, reduceCtorEq,
        or_false, Edge.mk.injEq]
      by_cases h : p = a
      · subst h
        by_cases h : q = b
        · subst h
          simp
        · simp [h, Ne.symm h]
      · simp [h, Ne.symm h]
    | RemoveEdgeAttr a b =>
      simp only [applyEdgeCommandTo, AttributeMapping.remove, HMap.get?_remove, TouchesEdge, AttributeCommand.RemoveEdgeAttr.injEq,
        reduceCtorEq, exists_false, false_or, Edge.mk.injEq]
      by_cases h : p = a
      · subst h
        by_cases h : q = b
        · subst h
          simp
        · simp [h, Ne.symm h]
      · simp [h, Ne.symm h]
    | AddVertexAttr w y => simp [applyEdgeCommandTo, TouchesEdge]
    | RemoveVertexAttr w => simp [applyEdgeCommandTo, TouchesEdge]

end GC
