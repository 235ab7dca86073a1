/-
C144: which graph commands can be swapped.
-/
import Verif.Props.Graph
import Verif.Spec.Swap
namespace GC

private theorem clash_iff (c d : GraphCommand) : Clash c d ↔
    match c, d with
    | .AddVertex v, .RemoveVertex w => v = w
    | .AddEdge a b, .RemoveVertex w => a = w ∨ b = w
    | .AddEdge a b, .RemoveEdge a' b' => a = a' ∧ b = b'
    | _, _ => False := by
  constructor
  · intro h; cases h <;> simp
  · cases c <;> cases d <;> simp only [false_imp_iff]
    · rintro rfl; exact .vertex _
    · rintro (rfl | rfl)
      · exact .source _ _
      · exact .target _ _
    · rintro ⟨rfl, rfl⟩; exact .edge _ _

private theorem clash_differs {G : SetGraph} {c d : GraphCommand} (h : Clash c d) :
    (G.step c).step d ≠ (G.step d).step c := by
  intro he
  have hV : ∀ x, ((G.step c).step d).V x ↔ ((G.step d).step c).V x := fun x => by rw [he]
  have hE : ∀ x, ((G.step c).step d).E x ↔ ((G.step d).step c).E x := fun x => by rw [he]
  cases h with
  | vertex v => simpa [SetGraph.step] using hV v
  | source a b => simpa [SetGraph.step] using hV a
  | target a b => simpa [SetGraph.step] using hV b
  | edge a b => simpa [SetGraph.step] using hE ⟨a, b⟩

private theorem step_swap {G : SetGraph} {c d : GraphCommand} (h : ¬ Conflict c d) :
    (G.step c).step d = (G.step d).step c := by
  rw [Conflict, clash_iff, clash_iff, not_or] at h
  obtain ⟨h1, h2⟩ := h
  apply SetGraph.ext' <;> intro x <;> cases c <;> cases d <;> simp only [SetGraph.step, ne_eq] at h1 h2 ⊢ <;>
    first
    | tauto
    | (constructor <;> intro hx <;> grind)

/-- C144: two commands can be swapped exactly if neither removes what the other adds; where they cannot, the two orders differ on
*every* graph. -/
theorem C144_swap_iff (g : DirectedGraph) (h : Built g) (c d : GraphCommand) :
    SameGraph (d.applyTo (c.applyTo g)) (c.applyTo (d.applyTo g)) ↔ ¬ Conflict c d := by
  rw [sameGraph_iff, toSet_applyTo (h.wf.applyTo c), toSet_applyTo h.wf, toSet_applyTo (h.wf.applyTo d), toSet_applyTo h.wf]
  constructor
  · rintro he (hc | hc)
    · exact clash_differs hc he
    · exact clash_differs hc he.symm
  · exact step_swap

/-- Both cases occur: removing an edge and adding one of its ends can be swapped, removing a vertex and adding an edge to it cannot. -/
example : ¬ Conflict (.RemoveEdge 1 2) (.AddVertex 1) := by
  rintro (h | h) <;> cases h
example : Conflict (.RemoveVertex 2) (.AddEdge 1 2) := .inr (.target 1 2)
example : Built (GraphCommand.applyCommands exHistory .new) := Built.new.applyCommands _

private theorem run_perm {cs ds : List GraphCommand} (p : cs.Perm ds) :
    ∀ G : SetGraph, cs.Pairwise (fun c d => ¬ Conflict c d) → G.run cs = G.run ds := by
  have symm : ∀ {l m : List GraphCommand}, l.Perm m → l.Pairwise (fun c d => ¬ Conflict c d) →
      m.Pairwise (fun c d => ¬ Conflict c d) := fun p h =>
    (p.pairwise_iff (fun {a b} (hab : ¬ Conflict a b) (hba : Conflict b a) => hab hba.symm)).1 h
  induction p with
  | nil => intro G _; rfl
  | cons c _ ih => intro G h; exact ih (G.step c) (List.pairwise_cons.1 h).2
  | swap c d l =>
    intro G h
    have hcd : ¬ Conflict d c := (List.pairwise_cons.1 h).1 c (List.mem_cons_self ..)
    show ((G.step d).step c).run l = ((G.step c).step d).run l
    rw [step_swap hcd]
  | trans p _ ih1 ih2 => intro G h; exact (ih1 G h).trans (ih2 G (symm p h))

/-- C144: a batch in which no command removes what another adds gives the same graph in whatever order it is applied. -/
theorem C144_reorder (g : DirectedGraph) (h : Built g) (cs ds : List GraphCommand) (p : cs.Perm ds)
    (hc : cs.Pairwise (fun c d => ¬ Conflict c d)) :
    SameGraph (GraphCommand.applyCommands cs g) (GraphCommand.applyCommands ds g) := by
  rw [sameGraph_iff, C01_apply_commands _ _ h, C01_apply_commands _ _ h]
  exact run_perm p _ hc

/-- A batch of three commands that adds and removes, but not the same things. -/
example : [GraphCommand.AddEdge 1 2, .RemoveVertex 3, .RemoveEdge 2 1].Pairwise (fun c d => ¬ Conflict c d) := by
  simp only [List.pairwise_cons, List.mem_cons, List.not_mem_nil, or_false, forall_eq_or_imp, forall_eq]
  refine ⟨⟨?_, ?_⟩, ?_, ?_, List.Pairwise.nil⟩ <;> first | (rintro (h | h) <;> cases h) | simp

/-- C144: a command that is repeated later has no effect the first time, if nothing in between removes what it adds or adds what it
removes. -/
theorem C144_repeat (g : DirectedGraph) (h : Built g) (c : GraphCommand) (cs : List GraphCommand)
    (hc : ∀ d ∈ cs, ¬ Conflict c d) :
    SameGraph (GraphCommand.applyCommands (c :: cs ++ [c]) g) (GraphCommand.applyCommands (cs ++ [c]) g) ∧
    SameGraph (GraphCommand.applyCommands (c :: cs ++ [c]) g) (GraphCommand.applyCommands (c :: cs) g) := by
  have move : ∀ (l : List GraphCommand) (G : SetGraph), (∀ d ∈ l, ¬ Conflict c d) → (G.step c).run l = (G.run l).step c := by
    intro l
    induction l with
    | nil => intro G _; rfl
    | cons d l ih =>
      intro G hl
      show ((G.step c).step d).run l = ((G.step d).run l).step c
      rw [step_swap (hl d (List.mem_cons_self ..)), ih _ fun x hx => hl x (List.mem_cons_of_mem _ hx)]
  have twice : ∀ G : SetGraph, (G.step c).step c = G.step c := by
    intro G
    apply SetGraph.ext' <;> intro x <;> cases c <;> simp [SetGraph.step]
  have e1 : g.toSet.run (c :: cs ++ [c]) = (g.toSet.run cs).step c := by
    have : g.toSet.run (c :: cs ++ [c]) = ((g.toSet.step c).run cs).step c := by simp [SetGraph.run]
    rw [this, move cs _ hc, twice]
  refine ⟨?_, ?_⟩ <;> rw [sameGraph_iff, C01_apply_commands _ _ h, C01_apply_commands _ _ h, e1]
  · simp [SetGraph.run]
  · exact (move cs _ hc).symm

example : ∀ d ∈ [GraphCommand.RemoveVertex 3, .AddEdge 2 1], ¬ Conflict (.AddEdge 1 2) d := by
  simp only [List.mem_cons, List.not_mem_nil, or_false, forall_eq_or_imp, forall_eq]
  refine ⟨?_, ?_⟩ <;> rintro (h | h) <;> cases h

/-- C144 needs its condition: with a removal in between, the repetition matters. -/
theorem C144_repeat_needs_condition (g : DirectedGraph) (h : Built g) (a b : VertexId) :
    (GraphCommand.applyCommands [.AddEdge a b, .RemoveVertex a, .AddEdge a b] g).containsEdge ⟨a, b⟩ = true ∧
    (GraphCommand.applyCommands [.AddEdge a b, .RemoveVertex a] g).containsEdge ⟨a, b⟩ = false := by
  have k : ∀ cs, (GraphCommand.applyCommands cs g).containsEdge ⟨a, b⟩ = true ↔ (g.toSet.run cs).E ⟨a, b⟩ := fun cs => by
    rw [← C01_apply_commands cs g h]; rfl
  refine ⟨(k _).2 (by simp [SetGraph.run, SetGraph.step]), ?_⟩
  rw [← Bool.not_eq_true, k]
  simp [SetGraph.run, SetGraph.step]

example : Built (GraphCommand.applyCommands exHistory .new) := Built.new.applyCommands _

end GC
