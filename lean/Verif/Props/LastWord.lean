/-
C145: the last command about a vertex or an edge decides; undoing batches.
-/
import Verif.Props.Graph
import Verif.Spec.LastWord
namespace GC

private theorem last_snoc (adds drops : GraphCommand → Prop) (before : Prop) (cs : List GraphCommand) (c : GraphCommand) :
    LastWord adds drops before (cs ++ [c]) ↔ adds c ∨ (LastWord adds drops before cs ∧ ¬ drops c) := by
  constructor
  · rintro (⟨pre, x, post, he, ha, hd⟩ | ⟨hb, hd⟩)
    · rcases List.eq_nil_or_concat post with rfl | ⟨post, y, rfl⟩
      · have := List.append_inj_right' he rfl
        simp only [List.cons.injEq, and_true] at this
        exact .inl (this ▸ ha)
      · have he' : cs ++ [c] = (pre ++ x :: post) ++ [y] := by rw [he]; simp
        have h1 := List.append_inj_left' he' rfl
        have h2 := List.append_inj_right' he' rfl
        simp only [List.cons.injEq, and_true] at h2
        subst h2
        exact .inr ⟨.inl ⟨pre, x, post, h1, ha, fun d hd' => hd d (by simp [hd'])⟩, hd c (by simp)⟩
    · exact .inr ⟨.inr ⟨hb, fun d hd' => hd d (by simp [hd'])⟩, hd c (by simp)⟩
  · rintro (ha | ⟨⟨pre, x, post, rfl, ha, hd⟩ | ⟨hb, hd⟩, hc⟩)
    · exact .inl ⟨cs, c, [], rfl, ha, by simp⟩
    · refine .inl ⟨pre, x, post ++ [c], by simp, ha, ?_⟩
      simp only [List.mem_append, List.mem_singleton]
      rintro d (h | rfl)
      · exact hd d h
      · exact hc
    · refine .inr ⟨hb, ?_⟩
      simp only [List.mem_append, List.mem_singleton]
      rintro d (h | rfl)
      · exact hd d h
      · exact hc

private theorem run_last (G : SetGraph) (cs : List GraphCommand) :
    (∀ v, (G.run cs).V v ↔ LastWord (AddsVertex v) (DropsVertex v) (G.V v) cs) ∧
    ∀ e, (G.run cs).E e ↔ LastWord (AddsEdge e) (DropsEdge e) (G.E e) cs := by
  induction cs using List.reverseRecOn with
  | nil => simp [SetGraph.run, LastWord]
  | append_singleton cs c ih =>
    have hr : G.run (cs ++ [c]) = (G.run cs).step c := by simp [SetGraph.run]
    refine ⟨fun v => ?_, fun e => ?_⟩
    · rw [last_snoc, ← ih.1 v, hr]
      cases c <;> simp [SetGraph.step, AddsVertex, DropsVertex] <;> grind
    · rw [last_snoc, ← ih.2 e, hr]
      obtain ⟨s, t⟩ := e
      cases c <;> simp [SetGraph.step, AddsEdge, DropsEdge] <;> grind

/-- C145: after a batch a vertex is in the graph exactly if the last command about it adds it (or an edge at it), or no command is about
it and it was there before. -/
theorem C145_vertex (g : DirectedGraph) (h : Built g) (cs : List GraphCommand) (v : VertexId) :
    (GraphCommand.applyCommands cs g).containsVertex v = true ↔
      LastWord (AddsVertex v) (DropsVertex v) (g.containsVertex v = true) cs := by
  have := (run_last g.toSet cs).1 v
  rw [← C01_apply_commands cs g h] at this
  exact this

/-- C145: the same for an edge, which is also taken out with either of its ends. -/
theorem C145_edge (g : DirectedGraph) (h : Built g) (cs : List GraphCommand) (e : Edge) :
    (GraphCommand.applyCommands cs g).containsEdge e = true ↔
      LastWord (AddsEdge e) (DropsEdge e) (g.containsEdge e = true) cs := by
  have := (run_last g.toSet cs).2 e
  rw [← C01_apply_commands cs g h] at this
  exact this

/-- A batch that drops vertex 1 and adds it again with an edge: the vertex is there, and of its edges only the new one. -/
example : LastWord (AddsVertex 1) (DropsVertex 1) True [.AddEdge 1 2, .RemoveVertex 1, .AddEdge 3 1, .RemoveEdge 3 1] :=
  .inl ⟨[.AddEdge 1 2, .RemoveVertex 1], .AddEdge 3 1, [.RemoveEdge 3 1], rfl, .inr ⟨3, .inr rfl⟩, by simp [DropsVertex]⟩
example : Built (GraphCommand.applyCommands exHistory .new) := Built.new.applyCommands _

/-- C145: a command can be left out of a batch if a later part of the batch settles everything it is about. -/
theorem C145_overwritten (g : DirectedGraph) (h : Built g) (pre post : List GraphCommand) (c : GraphCommand)
    (hv : ∀ v, AddsVertex v c ∨ DropsVertex v c → ∃ d ∈ post, AddsVertex v d ∨ DropsVertex v d)
    (he : ∀ e, AddsEdge e c ∨ DropsEdge e c → ∃ d ∈ post, AddsEdge e d ∨ DropsEdge e d) :
    SameGraph (GraphCommand.applyCommands (pre ++ c :: post) g) (GraphCommand.applyCommands (pre ++ post) g) := by
  have key : ∀ (adds drops : GraphCommand → Prop),
      (adds c ∨ drops c → ∃ d ∈ post, adds d ∨ drops d) → ∀ before,
      (LastWord adds drops before (pre ++ c :: post) ↔ LastWord adds drops before (pre ++ post)) := by
    intro adds drops hc before
    have split : ∀ (l m : List GraphCommand), LastWord adds drops before (l ++ m) ↔
        LastWord adds drops (LastWord adds drops before l) m := by
      intro l m
      induction m using List.reverseRecOn with
      | nil => simp [LastWord]
      | append_singleton m x ih => rw [← List.append_assoc, last_snoc, last_snoc, ih]
    have irrelevant : ∀ m : List GraphCommand, (∃ d ∈ m, adds d ∨ drops d) → ∀ b b' : Prop,
        (LastWord adds drops b m ↔ LastWord adds drops b' m) := by
      intro m
      induction m using List.reverseRecOn with
      | nil => simp
      | append_singleton m x ih =>
        rintro ⟨d, hd, hdx⟩ b b'
        rw [last_snoc, last_snoc]
        by_cases hxa : adds x
        · simp [hxa]
        · by_cases hxd : drops x
          · simp [hxd]
          · have hm : d ∈ m := by
              simp only [List.mem_append, List.mem_singleton] at hd
              rcases hd with hd | rfl
              · exact hd
              · exact absurd hdx (by simp [hxa, hxd])
            rw [ih ⟨d, hm, hdx⟩ b b']
    by_cases hcc : adds c ∨ drops c
    · rw [show pre ++ c :: post = (pre ++ [c]) ++ post by simp, split, split pre post]
      exact irrelevant post (hc hcc) _ _
    · rw [not_or] at hcc
      rw [show pre ++ c :: post = (pre ++ [c]) ++ post by simp, split, split pre post, last_snoc]
      simp [hcc.1, hcc.2]
  have b : ∀ {x y : Bool}, (x = true ↔ y = true) → x = y := by intro x y; cases x <;> cases y <;> simp
  refine ⟨fun v => b ?_, fun e => b ?_⟩
  · rw [C145_vertex g h, C145_vertex g h]
    exact key _ _ (hv v) _
  · rw [C145_edge g h, C145_edge g h]
    exact key _ _ (he e) _

/-- An edge that is added and removed again together with one end, the other end being added later. -/
example : (∀ v, AddsVertex v (.AddEdge 1 2) ∨ DropsVertex v (.AddEdge 1 2) →
      ∃ d ∈ [GraphCommand.RemoveVertex 1, .AddVertex 2], AddsVertex v d ∨ DropsVertex v d) ∧
    ∀ e, AddsEdge e (.AddEdge 1 2) ∨ DropsEdge e (.AddEdge 1 2) →
      ∃ d ∈ [GraphCommand.RemoveVertex 1, .AddVertex 2], AddsEdge e d ∨ DropsEdge e d := by
  constructor
  · intro v hv
    simp only [AddsVertex, DropsVertex, GraphCommand.AddEdge.injEq, reduceCtorEq, false_or, or_false] at hv
    obtain ⟨w, ⟨rfl, -⟩ | ⟨-, rfl⟩⟩ := hv
    · exact ⟨_, List.mem_cons_self .., .inr rfl⟩
    · exact ⟨.AddVertex 2, by simp, .inl (.inl rfl)⟩
  · intro e he
    simp only [AddsEdge, DropsEdge, GraphCommand.AddEdge.injEq, reduceCtorEq, or_false] at he
    exact ⟨_, List.mem_cons_self .., .inr (.inr (.inl (by rw [he.1])))⟩

/-- C145: a batch of which each command is undone by its `revert` is undone by the reverted commands in opposite order. -/
theorem C145_undo (g : DirectedGraph) (h : Built g) (cs : List GraphCommand)
    (hu : ∀ pre c post, cs = pre ++ c :: post → Undoable (GraphCommand.applyCommands pre g) c) :
    SameGraph (GraphCommand.applyCommands (cs ++ (cs.map GraphCommand.revert).reverse) g) g := by
  induction cs using List.reverseRecOn with
  | nil => exact ⟨fun _ => rfl, fun _ => rfl⟩
  | append_singleton cs c ih =>
    have h1 := ih fun pre x post he => hu pre x (post ++ [c]) (by rw [he]; simp)
    have h2 := (C08_revert_undoes_partial _ (h.applyCommands cs) c).2 (hu cs c [] rfl)
    rw [sameGraph_iff] at h1 h2 ⊢
    rw [C01_apply_commands _ _ h] at h1 ⊢
    rw [toSet_applyTo ((h.applyCommands cs).wf.applyTo c), toSet_applyTo (h.applyCommands cs).wf, C01_apply_commands _ _ h] at h2
    have : g.toSet.run (cs ++ [c] ++ ((cs ++ [c]).map GraphCommand.revert).reverse) =
        (((g.toSet.run cs).step c).step c.revert).run (cs.map GraphCommand.revert).reverse := by
      simp [SetGraph.run]
    rw [this, h2]
    refine Eq.trans ?_ h1
    simp [SetGraph.run]

/-- Two new vertices and an edge between them. -/
example : ∀ pre c post, [GraphCommand.AddVertex 1, .AddVertex 2, .AddEdge 1 2] = pre ++ c :: post →
    Undoable (GraphCommand.applyCommands pre .new) c := by
  intro pre c post he
  match pre, he with
  | [], he => cases he; exact rfl
  | [_], he => cases he; exact rfl
  | [_, _], he => cases he; exact ⟨rfl, rfl, rfl⟩
  | _ :: _ :: _ :: [], he => simp at he
  | _ :: _ :: _ :: _ :: _, he => simp at he

/-- C145: from every graph every other one can be reached: removing all vertices and then applying `as_commands` of the other. -/
theorem C145_reach (g g' : DirectedGraph) (h : Built g) (h' : Built g') :
    SameGraph (GraphCommand.applyCommands (g.vertices.map .RemoveVertex ++ GraphCommand.asCommands g') g) g' := by
  have clear : (GraphCommand.applyCommands (g.vertices.map .RemoveVertex) g).toSet = SetGraph.empty := by
    apply SetGraph.ext'
    · intro v
      show (GraphCommand.applyCommands (g.vertices.map .RemoveVertex) g).containsVertex v = true ↔ False
      rw [C145_vertex g h]
      simp only [iff_false]
      rintro (⟨pre, c, post, he, ha, -⟩ | ⟨hb, hd⟩)
      · have : c ∈ g.vertices.map GraphCommand.RemoveVertex := by rw [he]; simp
        obtain ⟨w, -, rfl⟩ := List.mem_map.1 this
        simp [AddsVertex] at ha
      · exact hd (.RemoveVertex v) (List.mem_map.2 ⟨v, ((C02_listings_exact g h).2.1 v).2 hb, rfl⟩) rfl
    · intro e
      show (GraphCommand.applyCommands (g.vertices.map .RemoveVertex) g).containsEdge e = true ↔ False
      rw [C145_edge g h]
      simp only [iff_false]
      rintro (⟨pre, c, post, he, ha, -⟩ | ⟨hb, hd⟩)
      · have : c ∈ g.vertices.map GraphCommand.RemoveVertex := by rw [he]; simp
        obtain ⟨w, -, rfl⟩ := List.mem_map.1 this
        simp [AddsEdge] at ha
      · have hm := (C02_edges_closed g h e (((C02_listings_exact g h).2.2.2 e).2 hb)).1
        exact hd (.RemoveVertex e.src) (List.mem_map.2 ⟨_, hm, rfl⟩) (.inr (.inl rfl))
  have h2 := C07_as_commands_rebuilds g' h'
  rw [sameGraph_iff] at h2 ⊢
  rw [C01_apply_commands _ _ Built.new, toSet_new] at h2
  rw [C01_apply_commands _ _ h] at clear ⊢
  refine Eq.trans ?_ h2
  rw [← clear]
  simp [SetGraph.run]

example : Built (GraphCommand.applyCommands exHistory .new) := Built.new.applyCommands _

end GC
