/-
Properties C01-C08: the directed graph and the graph commands.
-/
import Verif.Proofs.GraphCommands
import Verif.Proofs.Samples
namespace GC
open DirectedGraph

/-! ### C01 -/

/-- C01: for every command history and every hash-map iteration order, `contains_vertex` and `contains_edge` answer as the
mathematical digraph obtained by the textbook meaning of the commands. -/
theorem C01_history_refines_set_semantics (cs : List GraphCommand) (g : DirectedGraph) (h : Evolves cs g) :
    (∀ v, g.containsVertex v = true ↔ (SetGraph.empty.run cs).V v) ∧
    (∀ e, g.containsEdge e = true ↔ (SetGraph.empty.run cs).E e) := by
  rw [← h.toSet]
  exact ⟨fun _ => Iff.rfl, fun _ => Iff.rfl⟩

/-- C01 for `apply_commands` on a graph that already exists. -/
theorem C01_apply_commands (cs : List GraphCommand) (g : DirectedGraph) (h : Built g) :
    (GraphCommand.applyCommands cs g).toSet = g.toSet.run cs :=
  toSet_applyCommands h.wf cs

/-- C01, the result of `apply_commands` is again a graph of the API. -/
theorem C01_apply_commands_built (cs : List GraphCommand) (g : DirectedGraph) (h : Built g) :
    Built (GraphCommand.applyCommands cs g) := h.applyCommands cs

/-- Example history: build a triangle with a self-loop, remove a vertex. -/
def exHistory : List GraphCommand :=
  [.AddEdge 1 2, .AddEdge 2 3, .AddEdge 3 1, .AddEdge 2 2, .AddVertex 7, .RemoveVertex 3, .RemoveEdge 5 6]

example : Evolves exHistory (GraphCommand.applyCommands exHistory .new) := by
  have h0 := Evolves.new
  exact ((((((h0.apply (.AddEdge 1 2)).apply (.AddEdge 2 3)).apply (.AddEdge 3 1)).apply (.AddEdge 2 2)).apply
    (.AddVertex 7)).apply (.RemoveVertex 3)).apply (.RemoveEdge 5 6)

example : (GraphCommand.applyCommands exHistory .new).containsEdge ⟨1, 2⟩ = true ∧
    (GraphCommand.applyCommands exHistory .new).containsEdge ⟨2, 2⟩ = true ∧
    (GraphCommand.applyCommands exHistory .new).containsEdge ⟨2, 3⟩ = false ∧
    (GraphCommand.applyCommands exHistory .new).containsVertex 3 = false := by decide

/-! ### C02 -/

/-- C02: `vertices()` and `edges()` list exactly the contained vertices and edges, without duplicates. -/
theorem C02_listings_exact (g : DirectedGraph) (h : Built g) :
    g.vertices.Nodup ∧ (∀ v, v ∈ g.vertices ↔ g.containsVertex v = true) ∧
    g.edges.Nodup ∧ (∀ e, e ∈ g.edges ↔ g.containsEdge e = true) :=
  ⟨h.wf.nodup_vertices, fun _ => mem_vertices, h.wf.nodup_edges, fun _ => h.wf.mem_edges⟩

/-- C02: both endpoints of a listed edge are listed vertices. -/
theorem C02_edges_closed (g : DirectedGraph) (h : Built g) (e : Edge) (he : e ∈ g.edges) :
    e.src ∈ g.vertices ∧ e.dst ∈ g.vertices := by
  have := h.wf.mem_edges.1 he
  exact ⟨mem_vertices.2 (h.wf.src_mem this), mem_vertices.2 (h.wf.dst_mem this)⟩

/-- C02: the counts and the head element agree with the listing. -/
theorem C02_counts (g : DirectedGraph) (h : Built g) :
    (∀ l : List VertexId, l.Nodup → (∀ v, v ∈ l ↔ g.containsVertex v = true) → g.vertexCount = l.length) ∧
    (g.isEmpty = true ↔ ∀ v, g.containsVertex v = false) ∧
    (∀ v, g.headOption = some v → g.containsVertex v = true) ∧
    (g.headOption = none ↔ g.isEmpty = true) := by
  have hlen : g.vertexCount = g.vertices.length := by simp [vertexCount, vertices, HMap.keys]
  refine ⟨?_, ?_, ?_, ?_⟩
  · intro l hl hm
    rw [hlen]
    apply List.Perm.length_eq
    rw [List.perm_ext_iff_of_nodup h.wf.nodup_vertices hl]
    intro v
    rw [hm, mem_vertices]
  · unfold isEmpty
    rw [hlen]
    simp only [beq_iff_eq, List.length_eq_zero_iff, List.eq_nil_iff_forall_not_mem, mem_vertices, Bool.not_eq_true]
  · intro v hv
    exact mem_vertices.1 (List.mem_of_mem_head? hv)
  · unfold headOption isEmpty
    rw [hlen]
    simp

example : (GraphCommand.applyCommands exHistory .new).vertices = [1, 2, 7] ∧
    (GraphCommand.applyCommands exHistory .new).edges = [⟨1, 2⟩, ⟨2, 2⟩] ∧
    (GraphCommand.applyCommands exHistory .new).vertexCount = 3 := by decide

/-! ### C03 -/

/-- C03: neighbour queries are exact and duplicate free, for every vertex id (present or not). -/
theorem C03_neighbours_exact (g : DirectedGraph) (h : Built g) (v : VertexId) :
    (g.outboundEdges v).Nodup ∧ (∀ e, e ∈ g.outboundEdges v ↔ g.containsEdge e = true ∧ e.src = v) ∧
    (g.inboundEdges v).Nodup ∧ (∀ e, e ∈ g.inboundEdges v ↔ g.containsEdge e = true ∧ e.dst = v) :=
  ⟨h.wf.nodup_outbound v, fun _ => h.wf.mem_outbound, h.wf.nodup_inbound v, fun _ => h.wf.mem_inbound⟩

/-- C03: the reversed edges of the outbound edges of `v` are the edges into `v` of the reversed graph, and reversing twice changes
nothing. -/
theorem C03_edge_reverse (g : DirectedGraph) (h : Built g) (v : VertexId) (e : Edge) :
    (e ∈ (g.outboundEdges v).map Edge.reverse ↔ g.containsEdge ⟨e.dst, e.src⟩ = true ∧ e.dst = v) ∧ e.reverse.reverse = e := by
  refine ⟨?_, rfl⟩
  rw [List.mem_map]
  constructor
  · rintro ⟨f, hf, rfl⟩
    exact h.wf.mem_outbound.1 hf
  · intro he
    exact ⟨⟨e.dst, e.src⟩, h.wf.mem_outbound.2 he, rfl⟩

/-- C03: the degrees count the edges of the graph leaving / entering the vertex. -/
theorem C03_degrees_exact (g : DirectedGraph) (h : Built g) (v : VertexId) :
    g.degreeOut v = (g.edges.filter (fun e => e.src = v)).length ∧
    g.degreeIn v = (g.edges.filter (fun e => e.dst = v)).length := by
  constructor
  · apply List.Perm.length_eq
    rw [List.perm_ext_iff_of_nodup (h.wf.nodup_outbound v) (h.wf.nodup_edges.filter _)]
    intro e
    rw [h.wf.mem_outbound]
    simp [h.wf.mem_edges]
  · apply List.Perm.length_eq
    rw [List.perm_ext_iff_of_nodup (h.wf.nodup_inbound v) (h.wf.nodup_edges.filter _)]
    intro e
    rw [h.wf.mem_inbound]
    simp [h.wf.mem_edges]

/-- C03: an unknown vertex has no neighbours. -/
theorem C03_absent_vertex (g : DirectedGraph) (h : Built g) (v : VertexId) (hv : g.containsVertex v = false) :
    g.outboundEdges v = [] ∧ g.inboundEdges v = [] := by
  constructor
  · rw [List.eq_nil_iff_forall_not_mem]
    intro e he
    have := h.wf.mem_outbound.1 he
    have h2 := h.wf.src_mem this.1
    rw [this.2, hv] at h2
    cases h2
  · rw [List.eq_nil_iff_forall_not_mem]
    intro e he
    have := h.wf.mem_inbound.1 he
    have h2 := h.wf.dst_mem this.1
    rw [this.2, hv] at h2
    cases h2

example : (GraphCommand.applyCommands exHistory .new).degreeIn 2 = 2 ∧
    (GraphCommand.applyCommands exHistory .new).degreeOut 2 = 1 ∧
    (GraphCommand.applyCommands exHistory .new).outboundEdges 9 = [] := by decide

/-! ### C04 -/

/-- C04, exact value of `edge_count`: every edge that is not a self-loop counts twice, every self-loop once, and the
sum is halved. -/
theorem C04_edge_count_formula (g : DirectedGraph) (h : Built g) :
    g.edgeCount = (2 * (g.edges.filter (fun e => e.src ≠ e.dst)).length +
      (g.edges.filter (fun e => e.src = e.dst)).length) / 2 := by
  unfold edgeCount
  rw [foldl_lengths]
  have hw := h.wf
  have h2 : (g.edgeMap.flatMap (fun p => p.2.filter (fun e => ¬ p.1 = e.src))).length =
      (g.edges.filter (fun e => e.src ≠ e.dst)).length := by
    apply List.Perm.length_eq
    rw [List.perm_ext_iff_of_nodup]
    · intro e
      rw [List.mem_flatMap, List.mem_filter, hw.mem_edges]
      constructor
      · rintro ⟨p, hp, he⟩
        rw [List.mem_filter, ← hw.get?_of_mem hp] at he
        simp only [decide_not, Bool.not_eq_true', decide_eq_false_iff_not] at he
        have := hw.mem_inc_iff.1 he.1
        refine ⟨this.1, ?_⟩
        rcases this.2 with h' | h'
        · exact absurd h'.symm he.2
        · simp only [ne_eq, decide_not, Bool.not_eq_true', decide_eq_false_iff_not]
          intro c
          exact he.2 (h'.symm.trans c.symm)
      · rintro ⟨he, hl⟩
        simp only [ne_eq, decide_not, Bool.not_eq_true', decide_eq_false_iff_not] at hl
        have h1 := hw.mem_inc_iff.2 ⟨he, Or.inr (Eq.refl e.dst)⟩
        have hd := hw.dst_mem he
        obtain ⟨es, hes⟩ : ∃ es, HMap.get? g.edgeMap e.dst = some es := by
          unfold containsVertex HMap.containsKey at hd
          cases hh : HMap.get? g.edgeMap e.dst with
          | none => simp [hh] at hd
          | some es => exact ⟨es, rfl⟩
        refine ⟨(e.dst, es), HMap.get?_mem hes, ?_⟩
        unfold inc at h1
        rw [hes] at h1
        simp only [Option.getD_some] at h1
        simp [h1, Ne.symm hl]
    · rw [List.nodup_flatMap]
      constructor
      · intro p hp
        rw [← hw.get?_of_mem hp]
        exact (hw.nodup _).filter _
      · have hk := hw.keys
        unfold HMap.keys at hk
        rw [List.Nodup, List.pairwise_map] at hk
        rw [List.pairwise_iff_forall_sublist] at hk ⊢
        intro a b hab
        have hne := hk hab
        have ha : a ∈ g.edgeMap := hab.subset (by simp)
        have hb : b ∈ g.edgeMap := hab.subset (by simp)
        simp only [Function.onFun, List.disjoint_left, List.mem_filter]
        rw [← hw.get?_of_mem ha, ← hw.get?_of_mem hb]
        simp only [decide_not, Bool.not_eq_true', decide_eq_false_iff_not]
        rintro e ⟨he1, he2⟩ ⟨he3, he4⟩
        rcases hw.touch _ _ he1 with h' | h'
        · exact he2 h'.symm
        · rcases hw.touch _ _ he3 with h'' | h''
          · exact he4 h''.symm
          · exact hne (h'.symm.trans h'')
    · exact hw.nodup_edges.filter _
  rw [h2]
  show (0 + g.edges.length + _) / 2 = _
  have h3 : g.edges.length = (g.edges.filter (fun e => e.src ≠ e.dst)).length +
      (g.edges.filter (fun e => e.src = e.dst)).length := by
    have := length_filter_add_not (fun e : Edge => e.src = e.dst) g.edges
    simp only [ne_eq]
    omega
  congr 1
  omega

/-- C04 (partial): on graphs without self-loops `edge_count` is the number of edges.
Missing: graphs with self-loops, where the claim is false (`C04_counterexample`). -/
theorem C04_edge_count_partial (g : DirectedGraph) (h : Built g) (hl : LoopFree g) :
    g.edgeCount = g.edges.length := by
  rw [C04_edge_count_formula g h]
  have h1 : g.edges.filter (fun e => e.src = e.dst) = [] := by
    rw [List.filter_eq_nil_iff]
    intro e he
    have := h.wf.mem_edges.1 he
    simp only [decide_eq_true_eq]
    intro c
    apply hl e.src
    unfold Adj
    cases e
    simp_all
  have h2 : g.edges.filter (fun e => e.src ≠ e.dst) = g.edges := by
    rw [List.filter_eq_self]
    intro e he
    have := (List.filter_eq_nil_iff.1 h1) e he
    simpa using this
  rw [h1, h2]
  simp

/-- C04 is false in general: a graph with one self-loop reports no edge. -/
theorem C04_counterexample : ∃ g, Built g ∧ g.edgeCount ≠ g.edges.length :=
  ⟨GraphCommand.applyCommands [.AddEdge 1 1] .new, Built.new.applyCommands _, by decide⟩

/-- `C02_edges_closed`, `C03_absent_vertex` and `C04_edge_count_partial` for two graphs. -/
example : ((1 : VertexId) ∈ (GraphCommand.applyCommands exHistory .new).vertices ∧ (2 : VertexId) ∈ (GraphCommand.applyCommands exHistory .new).vertices) ∧
    (GraphCommand.applyCommands exHistory .new).inboundEdges 3 = [] ∧
    (GraphCommand.applyCommands [.AddEdge 1 2, .AddEdge 2 3, .AddEdge 2 1] .new).edgeCount = 3 :=
  ⟨C02_edges_closed _ (Built.new.applyCommands _) ⟨1, 2⟩ (by decide), (C03_absent_vertex _ (Built.new.applyCommands _) 3 (by decide)).2,
    C04_edge_count_partial _ (Built.new.applyCommands _) (loopFree_graphOf (by decide))⟩

example : Built (GraphCommand.applyCommands [.AddEdge 1 2, .AddEdge 2 1] .new) ∧
    (GraphCommand.applyCommands [.AddEdge 1 2, .AddEdge 2 1] .new).edgeCount = 2 :=
  ⟨Built.new.applyCommands _, by decide⟩

/-! ### C05 -/

/-- C05: what the mutators return. -/
theorem C05_return_values (g : DirectedGraph) (v : VertexId) (e : Edge) :
    (g.addVertex v).1 = g.containsVertex v ∧
    (g.removeVertex v).1 = g.containsVertex v ∧
    (g.addEdge e).1 = !g.containsEdge e ∧
    (g.removeEdge e).1 = true := by
  refine ⟨?_, ?_, ?_, rfl⟩
  · unfold addVertex; split <;> simp_all
  · rw [removeVertex_eq]
  · unfold addEdge; split <;> simp_all

/-- C05: a returned value tells whether the graph changed (except for `remove_edge`). -/
theorem C05_unchanged (g : DirectedGraph) (h : Built g) (v : VertexId) (e : Edge) :
    ((g.addVertex v).1 = true ↔ SameGraph (g.addVertex v).2 g) ∧
    ((g.removeVertex v).1 = false ↔ SameGraph (g.removeVertex v).2 g) ∧
    ((g.addEdge e).1 = false ↔ SameGraph (g.addEdge e).2 g) := by
  obtain ⟨h1, h2, h3, _⟩ := C05_return_values g v e
  refine ⟨?_, ?_, ?_⟩
  · rw [h1]
    constructor
    · intro hv; unfold addVertex; rw [if_pos hv]; exact ⟨fun _ => rfl, fun _ => rfl⟩
    · rintro ⟨hv, _⟩; rw [← hv v, containsVertex_addVertex]; exact .inr rfl
  · rw [h2]
    constructor
    · intro hv
      rw [sameGraph_iff]
      have := toSet_applyTo h.wf (.RemoveVertex v)
      simp only [GraphCommand.applyTo] at this
      rw [this]
      apply SetGraph.ext'
      · intro x
        show g.containsVertex x = true ∧ x ≠ v ↔ g.containsVertex x = true
        refine ⟨fun h => h.1, fun hx => ⟨hx, ?_⟩⟩
        rintro rfl; rw [hv] at hx; cases hx
      · intro x
        show g.containsEdge x = true ∧ x.src ≠ v ∧ x.dst ≠ v ↔ g.containsEdge x = true
        refine ⟨fun h => h.1, fun hx => ⟨hx, ?_, ?_⟩⟩
        · rintro rfl; rw [h.wf.src_mem hx] at hv; cases hv
        · rintro rfl; rw [h.wf.dst_mem hx] at hv; cases hv
    · rintro ⟨hv, _⟩
      have := containsVertex_removeVertex g v v
      rw [hv v] at this
      cases hc : g.containsVertex v
      · rfl
      · exact absurd rfl (this.1 hc).2
  · rw [h3]
    constructor
    · intro hv
      have : g.containsEdge e = true := by simpa using hv
      unfold addEdge
      simp only [this]
      exact ⟨fun _ => rfl, fun _ => rfl⟩
    · rintro ⟨_, hv⟩
      have := toSet_applyTo h.wf (.AddEdge e.src e.dst)
      have := congrFun (congrArg SetGraph.E this) e
      have h4 : (g.addEdge e).2.containsEdge e = true := this.mpr (.inr rfl)
      rw [← hv e, h4]; rfl

example : ((GraphCommand.applyCommands exHistory .new).addEdge ⟨1, 2⟩).1 = false ∧
    ((GraphCommand.applyCommands exHistory .new).removeVertex 3).1 = false ∧
    ((GraphCommand.applyCommands exHistory .new).addVertex 7).1 = true := by decide

/-! ### C06 -/

/-- C06: every command is idempotent. -/
theorem C06_commands_idempotent (g : DirectedGraph) (h : Built g) (c : GraphCommand) :
    SameGraph (c.applyTo (c.applyTo g)) (c.applyTo g) := by
  rw [sameGraph_iff, toSet_applyTo (h.wf.applyTo c), toSet_applyTo h.wf]
  apply SetGraph.ext' <;> intro x <;> cases c <;> simp [SetGraph.step]

example : Built (GraphCommand.applyCommands exHistory .new) := Built.new.applyCommands _

/-! ### C07 -/

/-- C07: replaying `as_commands(g)` on a new graph gives the vertices and edges of `g`. -/
theorem C07_as_commands_rebuilds (g : DirectedGraph) (h : Built g) :
    SameGraph (GraphCommand.applyCommands (GraphCommand.asCommands g) .new) g := by
  rw [sameGraph_iff, toSet_applyCommands WF.new, toSet_new, run_asCommands g h.wf]

example : GraphCommand.asCommands (GraphCommand.applyCommands exHistory .new) =
    [.AddVertex 1, .AddVertex 2, .AddVertex 7, .AddEdge 1 2, .AddEdge 2 2] := by decide

/-! ### C08 -/

/-- C08: `revert` is an involution. -/
theorem C08_revert_involutive (c : GraphCommand) : c.revert.revert = c := by cases c <;> rfl

/-- The situations in which the reverted command undoes a command. -/
def Undoable (g : DirectedGraph) : GraphCommand → Prop
  | .AddVertex v => g.containsVertex v = false
  | .RemoveVertex v => g.containsVertex v = true ∧ ∀ e, g.containsEdge e = true → e.src ≠ v ∧ e.dst ≠ v
  | .AddEdge a b => g.containsEdge ⟨a, b⟩ = false ∧ g.containsVertex a = true ∧ g.containsVertex b = true
  | .RemoveEdge a b => g.containsEdge ⟨a, b⟩ = true

/-- C08 (partial): exactly when `revert` restores the graph. Missing: the claim for removed vertices with incident edges and for
added edges whose endpoints were absent, where it is false (`C08_counterexample`). -/
theorem C08_revert_undoes_partial (g : DirectedGraph) (h : Built g) (c : GraphCommand) :
    SameGraph (c.revert.applyTo (c.applyTo g)) g ↔ Undoable g c := by
  rw [sameGraph_iff, toSet_applyTo (h.wf.applyTo c), toSet_applyTo h.wf]
  constructor
  · intro he
    have hV := fun x => congrFun (congrArg SetGraph.V he) x
    have hE := fun x => congrFun (congrArg SetGraph.E he) x
    cases c with
    | AddVertex v =>
      have : g.containsVertex v = true → False := fun hc => ((hV v).mpr hc).2 rfl
      simpa [Undoable] using this
    | RemoveVertex v =>
      refine ⟨(hV v).mp (.inr rfl), fun e he => ?_⟩
      exact ((hE e).mpr he).2
    | AddEdge a b =>
      refine ⟨?_, (hV a).mp (.inr (.inl rfl)), (hV b).mp (.inr (.inr rfl))⟩
      have : g.containsEdge ⟨a, b⟩ = true → False := fun hc => ((hE ⟨a, b⟩).mpr hc).2 rfl
      simpa using this
    | RemoveEdge a b => exact (hE ⟨a, b⟩).mp (.inr rfl)
  · intro hu
    apply SetGraph.ext'
    · intro x
      cases c with
      | AddVertex v =>
        have hu : g.containsVertex v = false := hu
        show (g.containsVertex x = true ∨ x = v) ∧ x ≠ v ↔ g.containsVertex x = true
        constructor
        · rintro ⟨a | a, b⟩
          · exact a
          · exact absurd a b
        · intro hx
          refine ⟨.inl hx, ?_⟩
          rintro rfl; rw [hu] at hx; cases hx
      | RemoveVertex v =>
        show (g.containsVertex x = true ∧ x ≠ v) ∨ x = v ↔ g.containsVertex x = true
        constructor
        · rintro (a | rfl)
          · exact a.1
          · exact hu.1
        · intro hx; by_cases hxv : x = v
          · exact .inr hxv
          · exact .inl ⟨hx, hxv⟩
      | AddEdge a b =>
        show (g.containsVertex x = true ∨ x = a ∨ x = b) ↔ g.containsVertex x = true
        constructor
        · rintro (h | rfl | rfl)
          · exact h
          · exact hu.2.1
          · exact hu.2.2
        · exact Or.inl
      | RemoveEdge a b =>
        show (g.containsVertex x = true ∨ x = a ∨ x = b) ↔ g.containsVertex x = true
        constructor
        · rintro (h' | rfl | rfl)
          · exact h'
          · exact h.wf.src_mem hu
          · exact h.wf.dst_mem hu
        · exact Or.inl
    · intro x
      cases c with
      | AddVertex v =>
        have hu : g.containsVertex v = false := hu
        show (g.containsEdge x = true ∧ x.src ≠ v ∧ x.dst ≠ v) ↔ g.containsEdge x = true
        refine ⟨fun h => h.1, fun hx => ⟨hx, ?_, ?_⟩⟩
        · rintro rfl; rw [h.wf.src_mem hx] at hu; cases hu
        · rintro rfl; rw [h.wf.dst_mem hx] at hu; cases hu
      | RemoveVertex v =>
        show (g.containsEdge x = true ∧ x.src ≠ v ∧ x.dst ≠ v) ↔ g.containsEdge x = true
        exact ⟨fun h => h.1, fun hx => ⟨hx, hu.2 x hx⟩⟩
      | AddEdge a b =>
        show (g.containsEdge x = true ∨ x = ⟨a, b⟩) ∧ x ≠ ⟨a, b⟩ ↔ g.containsEdge x = true
        constructor
        · rintro ⟨h | h, h'⟩
          · exact h
          · exact absurd h h'
        · intro hx
          refine ⟨.inl hx, ?_⟩
          rintro rfl; rw [hu.1] at hx; cases hx
      | RemoveEdge a b =>
        show (g.containsEdge x = true ∧ x ≠ ⟨a, b⟩) ∨ x = ⟨a, b⟩ ↔ g.containsEdge x = true
        constructor
        · rintro (a | rfl)
          · exact a.1
          · exact hu
        · intro hx; by_cases hxv : x = ⟨a, b⟩
          · exact .inr hxv
          · exact .inl ⟨hx, hxv⟩

/-- C08 is false in general: removing vertex 1 of the graph 1 → 2 changes the graph, and adding it back does not restore the edge;
adding the edge 1 → 2 to the empty graph and removing it leaves two vertices behind. -/
theorem C08_counterexample :
    (∃ (g : DirectedGraph) (c : GraphCommand), Built g ∧ ¬ SameGraph (c.applyTo g) g ∧ ¬ SameGraph (c.revert.applyTo (c.applyTo g)) g ∧
      c = .RemoveVertex 1) ∧
    (∃ (g : DirectedGraph) (c : GraphCommand), Built g ∧ ¬ SameGraph (c.applyTo g) g ∧ ¬ SameGraph (c.revert.applyTo (c.applyTo g)) g ∧
      c = .AddEdge 1 2) := by
  constructor
  · refine ⟨GraphCommand.applyCommands [.AddEdge 1 2] .new, .RemoveVertex 1, Built.new.applyCommands _, ?_, ?_, rfl⟩
    · rintro ⟨h, _⟩; exact absurd (h 1) (by decide)
    · rintro ⟨_, h⟩; exact absurd (h ⟨1, 2⟩) (by decide)
  · refine ⟨.new, .AddEdge 1 2, Built.new, ?_, ?_, rfl⟩
    · rintro ⟨h, _⟩; exact absurd (h 1) (by decide)
    · rintro ⟨h, _⟩; exact absurd (h 1) (by decide)

example : Undoable (GraphCommand.applyCommands exHistory .new) (.AddEdge 1 7) := by
  refine ⟨?_, ?_, ?_⟩ <;> decide

end GC
