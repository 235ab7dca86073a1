/-
Properties C38-C39: topological sort.
-/
import Verif.Proofs.Topo
import Verif.Props.Graph
namespace GC
open DirectedGraph TopoSort

/-- Example graph: 5→11, 11→2, 7→11, 7→8, 3→8, 8→9, 11→9 and an isolated vertex 20. -/
def exDag : DirectedGraph :=
  GraphCommand.applyCommands [.AddEdge 5 11, .AddEdge 11 2, .AddEdge 7 11, .AddEdge 7 8, .AddEdge 3 8, .AddEdge 8 9, .AddEdge 11 9,
    .AddVertex 20] .new

theorem exDag_built : Built exDag := Built.new.applyCommands _

theorem nonloops_length {g : DirectedGraph} :
    (g.edges.filter (fun e => e.src ≠ e.dst)).length + (g.edges.filter (fun e => e.src = e.dst)).length = g.edges.length := by
  induction g.edges with
  | nil => rfl
  | cons e l ih =>
    simp only [List.filter_cons]
    by_cases h : e.src = e.dst <;> simp_all <;> omega

theorem mem_loops {g : DirectedGraph} (hw : WF g) {e : Edge} :
    e ∈ g.edges.filter (fun e => e.src = e.dst) ↔ ∃ u, e = ⟨u, u⟩ ∧ Adj g u u := by
  rw [List.mem_filter, hw.mem_edges]
  obtain ⟨a, b⟩ := e
  simp only [decide_eq_true_eq, Edge.mk.injEq]
  constructor
  · rintro ⟨h1, h2⟩
    subst h2
    exact ⟨a, ⟨rfl, rfl⟩, h1⟩
  · rintro ⟨u, ⟨rfl, rfl⟩, h⟩
    exact ⟨h, rfl⟩

/-- What the final state of the algorithm says about the graph when it answers `Some`. -/
theorem some_cases {g : DirectedGraph} (h : Built g) {s : State} (hi : Inv g s) (hq : s.startVertices = [])
    (hlen : s.removedEdges.length = g.edgeCount) :
    TopologicalOrder g s.res ∨ ∃ u, OnlyDeadEndLoop g u ∧ (∀ v, v ∈ s.res ↔ g.containsVertex v = true ∧ v ≠ u) := by
  have hw := h.wf
  have hsub := hi.removed_subperm hw
  have hle := hsub.length_le
  rw [hlen, C04_edge_count_formula g h] at hle
  have hnd := (List.nodup_append.1 hi.nd).1
  have hall : ∀ e, g.containsEdge e = true → e.src ≠ e.dst → e.src ∈ s.res := by
    intro e he hne
    have hp : s.removedEdges.Perm (g.edges.filter (fun e => e.src ≠ e.dst)) := by
      refine hsub.perm_of_length_le ?_
      rw [hlen, C04_edge_count_formula g h]
      omega
    have : e ∈ s.removedEdges := hp.mem_iff.2 (List.mem_filter.2 ⟨hw.mem_edges.2 he, by simpa using hne⟩)
    exact ((hi.rm e).1 this).2
  cases hl : g.edges.filter (fun e => e.src = e.dst) with
  | nil =>
    left
    have hloop : ∀ v, ¬ Adj g v v := by
      intro v hv
      have := (mem_loops hw (e := ⟨v, v⟩)).2 ⟨v, rfl, hv⟩
      rw [hl] at this
      simp at this
    have hm : ∀ v, v ∈ s.res ↔ g.containsVertex v = true := by
      intro v
      refine ⟨fun hv => ((hi.final_mem hq v).1 hv).1, fun hv => (hi.final_mem hq v).2 ⟨hv, fun u hu => ?_⟩⟩
      exact hall ⟨u, v⟩ hu (by rintro ⟨⟩; exact hloop _ hu)
    exact ⟨hnd, hm, fun u v hu => hi.before ((hm v).2 (hw.dst_mem hu)) hu⟩
  | cons e0 l =>
    right
    rw [hl] at hle
    have hl0 : l = [] := by
      cases l with
      | nil => rfl
      | cons => simp only [List.length_cons] at hle; omega
    subst hl0
    obtain ⟨u, rfl, hu⟩ := (mem_loops hw).1 (by rw [hl]; exact List.mem_singleton.2 rfl : e0 ∈ _)
    have honly : ∀ v, Adj g v v → v = u := by
      intro v hv
      have := (mem_loops hw (e := ⟨v, v⟩)).2 ⟨v, rfl, hv⟩
      rw [hl, List.mem_singleton] at this
      injection this
    have hunot : u ∉ s.res := fun c => hi.no_loop c hu
    have hout : ∀ v, Adj g u v → v = u := by
      intro v hv
      by_contra c
      exact hunot (hall ⟨u, v⟩ hv (fun e => c e.symm))
    have hm : ∀ v, v ∈ s.res ↔ g.containsVertex v = true ∧ v ≠ u := by
      intro v
      refine ⟨fun hv => ⟨((hi.final_mem hq v).1 hv).1, fun e => hunot (e ▸ hv)⟩, ?_⟩
      rintro ⟨hv, hne⟩
      refine (hi.final_mem hq v).2 ⟨hv, fun w hw' => ?_⟩
      refine hall ⟨w, v⟩ hw' ?_
      rintro ⟨⟩
      exact hne (honly _ hw')
    refine ⟨u, ⟨hu, hout, ?_⟩, hm⟩
    intro v hv
    by_contra c
    -- every step of a cycle avoiding `u` goes forward in the result
    have key : ∀ {a b}, Relation.TransGen (Adj g) a b → b ≠ u → Before s.res a b := by
      intro a b hab
      induction hab with
      | single hab =>
        intro hb
        exact hi.before ((hm _).2 ⟨hw.dst_mem hab, hb⟩) hab
      | tail _ hbc ih =>
        intro hc
        rename_i b c _
        have hb : b ≠ u := by rintro rfl; exact hc (hout _ hbc)
        exact (ih hb).trans hnd (hi.before ((hm _).2 ⟨hw.dst_mem hbc, hc⟩) hbc)
    exact (key hv c).ne hnd rfl

/-! ### C38 -/

/-- C38 (partial): on a graph without self-loops, an order returned by `topological_sort` contains every vertex exactly once and every
edge goes from an earlier to a later vertex. Missing: graphs with a self-loop, for which the claim is false (`C38_counterexample`). -/
theorem C38_order_partial (g : DirectedGraph) (h : Built g) (hl : LoopFree g) (l : List VertexId)
    (hr : Returns (topologicalSort g) (some l)) : TopologicalOrder g l := by
  obtain ⟨s, hi, hq, hs⟩ := topologicalSort_returns h.wf
  have e := hs.unique hr
  split at e
  · cases e
  · rename_i hlen
    cases e
    rcases some_cases h hi hq (by simpa using hlen) with c | ⟨u, c, _⟩
    · exact c
    · exact absurd c.1 (hl u)

/-- C38, for every graph: an order returned by `topological_sort` is a topological order, or it contains exactly once every vertex but
one, all of whose outgoing edges lead back to itself, and the edges between other vertices go forward. -/
theorem C38_order_any_graph (g : DirectedGraph) (h : Built g) (l : List VertexId) (hr : Returns (topologicalSort g) (some l)) :
    TopologicalOrder g l ∨
      ∃ u, OnlyDeadEndLoop g u ∧ l.Nodup ∧ (∀ v, v ∈ l ↔ g.containsVertex v = true ∧ v ≠ u) ∧
        ∀ a b, Adj g a b → b ≠ u → Before l a b := by
  obtain ⟨s, hi, hq, hs⟩ := topologicalSort_returns h.wf
  have e := hs.unique hr
  split at e
  · cases e
  · rename_i hlen
    cases e
    rcases some_cases h hi hq (by simpa using hlen) with c | ⟨u, c, hm⟩
    · exact .inl c
    · exact .inr ⟨u, c, (List.nodup_append.1 hi.nd).1, hm,
        fun a b hab hb => hi.before ((hm b).2 ⟨h.wf.dst_mem hab, hb⟩) hab⟩

/-- C38 is false in general: with a single self-loop the vertex carrying it is left out. -/
theorem C38_counterexample : ∃ g l, Built g ∧ Returns (topologicalSort g) (some l) ∧ ¬ TopologicalOrder g l := by
  refine ⟨GraphCommand.applyCommands [.AddEdge 0 1, .AddEdge 1 1] .new, [0], Built.new.applyCommands _, ?_, ?_⟩
  · refine Mono.returns (n := 3) ?_ (by decide)
    refine Mono.bind (Mono.loop (fun s => ?_) _) (fun s => ?_)
    · unfold TopoSort.step
      split <;> exact Mono.ret _
    · split <;> exact Mono.ret _
  · intro h
    exact absurd ((h.2.1 1).2 (by decide)) (by decide)

theorem mono_sort (g : DirectedGraph) : Mono (topologicalSort g) := by
  refine Mono.bind (Mono.loop (fun s => ?_) _) (fun s => ?_)
  · unfold TopoSort.step
    split <;> exact Mono.ret _
  · split <;> exact Mono.ret _

/-- `C38_order_partial` for `exDag`, and `C38_order_any_graph` for a graph with a self-loop. -/
example : TopologicalOrder exDag [5, 7, 3, 20, 11, 8, 2, 9] ∧
    (TopologicalOrder (GraphCommand.applyCommands [.AddEdge 0 1, .AddEdge 1 1] .new) [0] ∨
      ∃ u, OnlyDeadEndLoop (GraphCommand.applyCommands [.AddEdge 0 1, .AddEdge 1 1] .new) u) :=
  ⟨C38_order_partial _ exDag_built (loopFree_graphOf (by decide)) _ (Mono.returns (n := 10) (mono_sort _) (by decide)),
    (C38_order_any_graph _ (Built.new.applyCommands _) [0] (Mono.returns (n := 3) (mono_sort _) (by decide))).imp_right fun ⟨u, h, _⟩ => ⟨u, h⟩⟩

example : topologicalSort exDag 10 = .done (some [5, 7, 3, 20, 11, 8, 2, 9]) := by decide

/-! ### C39 -/

/-- C39: on every acyclic graph `topological_sort` returns a topological order. -/
theorem C39_acyclic_succeeds (g : DirectedGraph) (h : Built g) (ha : Acyclic g) :
    ∃ l, Returns (topologicalSort g) (some l) ∧ TopologicalOrder g l := by
  obtain ⟨s, hi, hq, hs⟩ := topologicalSort_returns h.wf
  have hm := hi.all_of_acyclic h.wf hq ha
  have hlen := hi.removed_length_of_all h.wf (fun e he => (hm _).2 (h.wf.src_mem he))
  have hlf : LoopFree g := fun v hv => ha v (.single hv)
  rw [← C04_edge_count_partial g h hlf] at hlen
  rw [if_neg (by simpa using hlen)] at hs
  exact ⟨_, hs, C38_order_partial g h hlf _ hs⟩

/-- C39: `topological_sort` always returns; it answers `Some` exactly if the graph has no cycle, or has only one cycle, a self-loop of a
vertex without other outgoing edge. -/
theorem C39_exact (g : DirectedGraph) (h : Built g) :
    ∃ r, Returns (topologicalSort g) r ∧ (r.isSome = true ↔ Acyclic g ∨ ∃ u, OnlyDeadEndLoop g u) := by
  obtain ⟨s, hi, hq, hs⟩ := topologicalSort_returns h.wf
  refine ⟨_, hs, ?_⟩
  constructor
  · intro hr
    split at hr
    · cases hr
    · rename_i hlen
      rcases some_cases h hi hq (by simpa using hlen) with c | ⟨u, c, _⟩
      · exact .inl (acyclic_of_order c)
      · exact .inr ⟨u, c⟩
  · rintro (ha | ⟨u, hu, hout, hcyc⟩)
    · obtain ⟨l, hl, _⟩ := C39_acyclic_succeeds g h ha
      rw [hs.unique hl]
      rfl
    · have hw := h.wf
      have hwf : WellFounded (Relation.TransGen (fun a b => Adj g a b ∧ a ≠ u)) := by
        have i2 : Std.Irrefl (Relation.TransGen (fun a b => Adj g a b ∧ a ≠ u)) := by
          refine ⟨fun a c => ?_⟩
          have h1 : a = u := hcyc a (Relation.TransGen.mono (p := Adj g) (fun _ _ h => h.1) _ _ c)
          obtain ⟨b, hb, _⟩ := Relation.TransGen.head'_iff.1 c
          exact hb.2 h1
        exact Finite.wellFounded_of_trans_of_irrefl _
      have hm : ∀ v, g.containsVertex v = true → v ≠ u → v ∈ s.res := by
        intro v
        induction hwf.apply v with
        | intro v _ ih =>
          intro hv hne
          refine (hi.final_mem hq v).2 ⟨hv, fun w hwv => ?_⟩
          have hwu : w ≠ u := by rintro rfl; exact hne (hout _ hwv)
          exact ih w (.single ⟨hwv, hwu⟩) (hw.src_mem hwv) hwu
      have hp : s.removedEdges.Perm (g.edges.filter (fun e => e.src ≠ e.dst)) := by
        rw [List.perm_ext_iff_of_nodup hi.rmnd (hw.nodup_edges.filter _)]
        intro e
        refine ⟨fun he => (hi.removed_subperm hw).subset he, fun he => ?_⟩
        obtain ⟨h1, h2⟩ := List.mem_filter.1 he
        have h1 := hw.mem_edges.1 h1
        refine (hi.rm e).2 ⟨h1, hm _ (hw.src_mem h1) ?_⟩
        intro c
        simp only [ne_eq, decide_eq_true_eq] at h2
        have : Adj g u e.dst := by unfold Adj; rw [← c]; exact h1
        exact h2 (c.trans (hout _ this).symm)
      have hloops : g.edges.filter (fun e => e.src = e.dst) = [⟨u, u⟩] := by
        apply List.perm_singleton.1
        rw [List.perm_ext_iff_of_nodup (hw.nodup_edges.filter _) (List.nodup_singleton _)]
        intro e
        rw [mem_loops hw, List.mem_singleton]
        constructor
        · rintro ⟨v, rfl, hv⟩
          rw [hcyc v (.single hv)]
        · rintro rfl
          exact ⟨u, rfl, hu⟩
      have hlen : s.removedEdges.length = g.edgeCount := by
        rw [C04_edge_count_formula g h, hloops, hp.length_eq]
        simp only [List.length_singleton]
        omega
      rw [if_neg (by simpa using hlen)]
      rfl

/-- C39 (partial): on a graph without self-loops `topological_sort`, `is_dag` and `try_dag` succeed if and only if the graph has no
directed cycle. Missing: graphs with a self-loop, for which the claim is false (`C39_counterexample`). -/
theorem C39_succeeds_iff_acyclic_partial (g : DirectedGraph) (h : Built g) (hl : LoopFree g) :
    ∃ r, Returns (topologicalSort g) r ∧ (r.isSome = true ↔ Acyclic g) ∧ Returns (isDag g) r.isSome ∧
      Returns (tryDag g) (if r.isSome then some ⟨g⟩ else none) := by
  obtain ⟨r, hr, hiff⟩ := C39_exact g h
  have hd : Returns (isDag g) r.isSome := Returns.bind hr (Returns.ret _)
  refine ⟨r, hr, ⟨fun c => ?_, fun c => hiff.2 (.inl c)⟩, hd, Returns.bind hd (Returns.ret _)⟩
  rcases hiff.1 c with c | ⟨u, c⟩
  · exact c
  · exact absurd c.1 (hl u)

/-- C39: `is_dag` and `try_dag` succeed on every graph exactly when `topological_sort` does. -/
theorem C39_is_dag_try_dag (g : DirectedGraph) (h : Built g) :
    ∃ r, Returns (topologicalSort g) r ∧ Returns (isDag g) r.isSome ∧
      Returns (tryDag g) (if r.isSome then some ⟨g⟩ else none) := by
  obtain ⟨r, hr, _⟩ := C39_exact g h
  have hd : Returns (isDag g) r.isSome := Returns.bind hr (Returns.ret _)
  exact ⟨r, hr, hd, Returns.bind hd (Returns.ret _)⟩

/-- C39 is false in general: a graph with a self-loop is reported as acyclic. -/
theorem C39_counterexample : ∃ g, Built g ∧ ¬ Acyclic g ∧ Returns (isDag g) true := by
  refine ⟨GraphCommand.applyCommands [.AddEdge 0 1, .AddEdge 1 1] .new, Built.new.applyCommands _, ?_, ?_⟩
  · intro h
    exact h 1 (.single (by unfold Adj; decide))
  · obtain ⟨r, hr, hiff⟩ := C39_exact (GraphCommand.applyCommands [.AddEdge 0 1, .AddEdge 1 1] .new) (Built.new.applyCommands _)
    have e : topologicalSort (GraphCommand.applyCommands [.AddEdge 0 1, .AddEdge 1 1] .new) 3 = .done (some [0]) := by decide
    have hm : Mono (topologicalSort (GraphCommand.applyCommands [.AddEdge 0 1, .AddEdge 1 1] .new)) := by
      refine Mono.bind (Mono.loop (fun s => ?_) _) (fun s => ?_)
      · unfold TopoSort.step
        split <;> exact Mono.ret _
      · split <;> exact Mono.ret _
    exact Returns.bind (hm.returns e) (Returns.ret _)

theorem exDag_acyclic : Acyclic exDag :=
  acyclic_graphOf (fun v => if v = 11 ∨ v = 8 then 1 else if v = 2 ∨ v = 9 then 2 else 0) (by decide)

/-- `C39_acyclic_succeeds` and `C39_succeeds_iff_acyclic_partial` for `exDag`. -/
example : (∃ l, Returns (topologicalSort exDag) (some l) ∧ TopologicalOrder exDag l) ∧ Returns (isDag exDag) true := by
  obtain ⟨r, _, h1, h2, _⟩ := C39_succeeds_iff_acyclic_partial exDag exDag_built (loopFree_graphOf (by decide))
  exact ⟨C39_acyclic_succeeds exDag exDag_built exDag_acyclic, h1.2 exDag_acyclic ▸ h2⟩

example : Built exDag ∧ isDag exDag 10 = .done true ∧
    isDag (GraphCommand.applyCommands [.AddEdge 1 2, .AddEdge 2 3, .AddEdge 3 1] .new) 10 = .done false ∧
    isDag (GraphCommand.applyCommands [.AddEdge 1 1, .AddEdge 2 2] .new) 10 = .done false ∧
    isDag (GraphCommand.applyCommands [.AddEdge 1 1, .AddEdge 1 2] .new) 10 = .done false :=
  ⟨exDag_built, by decide, by decide, by decide, by decide⟩

end GC
