/- Helper lemmas on counting edges and on replaying command lists. -/
import Verif.Proofs.Graph
import Mathlib.Tactic.Tauto
namespace GC
open DirectedGraph

theorem length_filter_add_not {α : Type} (q : α → Prop) [DecidablePred q] (l : List α) :
    l.length = (l.filter (fun e => q e)).length + (l.filter (fun e => ¬ q e)).length := by
  induction l with
  | nil => rfl
  | cons e l ih =>
    by_cases h : q e
    · simp only [h, List.filter_cons, decide_true, if_true, not_true, decide_false, Bool.false_eq_true, if_false,
        List.length_cons]
      omega
    · simp only [h, List.filter_cons, decide_true, if_true, not_false_iff, decide_false, Bool.false_eq_true, if_false,
        List.length_cons]
      omega

theorem foldl_lengths (m : HMap VertexId (List Edge)) (n : Nat) :
    m.foldl (fun total p => total + p.2.length) n =
      n + (m.flatMap (fun p => p.2.filter (fun e => p.1 = e.src))).length
        + (m.flatMap (fun p => p.2.filter (fun e => ¬ p.1 = e.src))).length := by
  induction m generalizing n with
  | nil => simp
  | cons p m ih =>
    simp only [List.foldl_cons, ih, List.flatMap_cons, List.length_append]
    have := length_filter_add_not (fun e : Edge => p.1 = e.src) p.2
    omega

theorem asCommands_eq (g : DirectedGraph) :
    GraphCommand.asCommands g = g.vertices.map .AddVertex ++ g.edges.map (fun e => .AddEdge e.src e.dst) := by
  unfold GraphCommand.asCommands
  have key : ∀ {α : Type} (f : α → GraphCommand) (l : List α) (acc : List GraphCommand),
      l.foldl (fun res v => res ++ [f v]) acc = acc ++ l.map f := by
    intro α f l
    induction l with
    | nil => simp
    | cons a l ih => intro acc; simp [ih]
  simp only [key, List.nil_append]

theorem run_addVertices (G : SetGraph) (vs : List VertexId) :
    G.run (vs.map .AddVertex) = ⟨fun x => G.V x ∨ x ∈ vs, G.E⟩ := by
  unfold SetGraph.run
  induction vs generalizing G with
  | nil => apply SetGraph.ext' <;> simp
  | cons v vs ih =>
    simp only [List.map_cons, List.foldl_cons]
    rw [ih]
    apply SetGraph.ext' <;> intro x <;> simp [SetGraph.step, or_assoc]

theorem run_addEdges (G : SetGraph) (es : List Edge) :
    G.run (es.map (fun e => .AddEdge e.src e.dst)) =
      ⟨fun x => G.V x ∨ ∃ e ∈ es, x = e.src ∨ x = e.dst, fun x => G.E x ∨ x ∈ es⟩ := by
  unfold SetGraph.run
  induction es generalizing G with
  | nil => apply SetGraph.ext' <;> simp
  | cons v vs ih =>
    simp only [List.map_cons, List.foldl_cons]
    rw [ih]
    apply SetGraph.ext' <;> intro x <;> simp only [SetGraph.step, List.mem_cons]
    · constructor
      · rintro ((h | h | h) | ⟨e, he, h⟩)
        · exact .inl h
        · exact .inr ⟨v, .inl rfl, .inl h⟩
        · exact .inr ⟨v, .inl rfl, .inr h⟩
        · exact .inr ⟨e, .inr he, h⟩
      · rintro (h | ⟨e, rfl | he, h⟩)
        · exact .inl (.inl h)
        · rcases h with h | h
          · exact .inl (.inr (.inl h))
          · exact .inl (.inr (.inr h))
        · exact .inr ⟨e, he, h⟩
    · cases v; tauto

theorem run_append (G : SetGraph) (a b : List GraphCommand) : G.run (a ++ b) = (G.run a).run b := by
  simp [SetGraph.run, List.foldl_append]

theorem run_asCommands (g : DirectedGraph) (h : WF g) :
    SetGraph.empty.run (GraphCommand.asCommands g) = g.toSet := by
  rw [asCommands_eq, run_append, run_addVertices, run_addEdges]
  apply SetGraph.ext'
  · intro x
    show ((False ∨ x ∈ g.vertices) ∨ ∃ e ∈ g.edges, x = e.src ∨ x = e.dst) ↔ g.containsVertex x = true
    rw [false_or, mem_vertices]
    constructor
    · rintro (h' | ⟨e, he, h'⟩)
      · exact h'
      · rcases h' with rfl | rfl
        · exact h.src_mem (h.mem_edges.1 he)
        · exact h.dst_mem (h.mem_edges.1 he)
    · exact Or.inl
  · intro x
    show (False ∨ x ∈ g.edges) ↔ g.containsEdge x = true
    rw [false_or, h.mem_edges]

end GC
