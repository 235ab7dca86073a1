/-
Properties C39 and C108: which order the topological sort returns.
-/
import Verif.Proofs.TopoLevels
import Verif.Proofs.GraphCommands
import Verif.Props.Topo
namespace GC
open DirectedGraph TopoSort

/-! ### C39, the order when there is only one -/

theorem pairwise_before (l : List VertexId) : l.Pairwise (Before l) := by
  rw [List.pairwise_iff_getElem]
  intro i j hi hj hij
  exact ⟨i, j, hij, by simp [hi], by simp [hj]⟩

theorem unique_of_chain {g : DirectedGraph} {l l' : List VertexId} (hl : l.Nodup) (hv : ∀ v, v ∈ l ↔ g.containsVertex v = true)
    (hc : l.IsChain (Adj g)) (ht : TopologicalOrder g l') : l' = l := by
  have hp : l'.Perm l := (List.perm_ext_iff_of_nodup ht.1 hl).2 fun v => by rw [ht.2.1, hv]
  refine hp.eq_of_pairwise (le := Before l') ?_ (pairwise_before l') ?_
  · intro a b _ _ hab hba
    exact absurd rfl ((hab.trans ht.1 hba).ne ht.1)
  · have : IsTrans VertexId (Before l') := ⟨fun _ _ _ h1 h2 => h1.trans ht.1 h2⟩
    exact List.isChain_iff_pairwise.1 (hc.imp fun a b => ht.2.2 a b)

/-- C39: if the vertices of an acyclic graph can be listed so that each has an edge to the next, `topological_sort` returns that list,
however the hash map orders the vertices. -/
theorem C39_unique_order (g : DirectedGraph) (h : Built g) (ha : Acyclic g) (l : List VertexId) (hl : l.Nodup)
    (hv : ∀ v, v ∈ l ↔ g.containsVertex v = true) (hc : l.IsChain (Adj g)) : Returns (topologicalSort g) (some l) := by
  obtain ⟨l', hr, ht⟩ := C39_acyclic_succeeds g h ha
  rw [← unique_of_chain hl hv hc ht]
  exact hr

/-- The commands that join each vertex of `l` to the next one. -/
def chainCommands (l : List VertexId) : List GraphCommand := (l.zip l.tail).map fun e => .AddEdge e.1 e.2

theorem mem_zip_tail {l : List VertexId} {u v : VertexId} (h : (u, v) ∈ l.zip l.tail) : Before l u v := by
  obtain ⟨i, hi⟩ := List.mem_iff_getElem?.1 h
  rw [List.getElem?_zip_eq_some] at hi
  exact ⟨i, i + 1, by omega, hi.1, by simpa [List.getElem?_tail] using hi.2⟩

theorem chain_zip (l : List VertexId) : l.IsChain (fun u v => (u, v) ∈ l.zip l.tail) := by
  rw [List.isChain_iff_getElem]
  intro i hi
  refine List.mem_iff_getElem?.2 ⟨i, ?_⟩
  rw [List.getElem?_zip_eq_some]
  refine ⟨by simp, by simp [List.getElem?_tail]⟩

theorem chain_run (l : List VertexId) (G : SetGraph) : G.run (chainCommands l) =
    ⟨fun x => G.V x ∨ ∃ e ∈ l.zip l.tail, x = e.1 ∨ x = e.2, fun x => G.E x ∨ (x.src, x.dst) ∈ l.zip l.tail⟩ := by
  have h : chainCommands l = ((l.zip l.tail).map fun e => (⟨e.1, e.2⟩ : Edge)).map (fun e => .AddEdge e.src e.dst) := by
    unfold chainCommands
    rw [List.map_map]
    rfl
  rw [h, run_addEdges]
  apply SetGraph.ext' <;> intro x
  · simp
  · obtain ⟨a, b⟩ := x
    simp

theorem mem_chain_vertex {l : List VertexId} (h2 : 2 ≤ l.length) (v : VertexId) :
    v ∈ l ↔ ∃ e ∈ l.zip l.tail, v = e.1 ∨ v = e.2 := by
  constructor
  · intro hv
    obtain ⟨i, hi, rfl⟩ := List.mem_iff_getElem.1 hv
    have key := List.isChain_iff_getElem.1 (chain_zip l)
    by_cases hlt : i + 1 < l.length
    · exact ⟨_, key i hlt, .inl rfl⟩
    · obtain ⟨k, rfl⟩ : ∃ k, i = k + 1 := ⟨i - 1, by omega⟩
      exact ⟨_, key k (by omega), .inr rfl⟩
  · rintro ⟨⟨a, b⟩, he, h⟩
    obtain ⟨i, j, _, h3, h4⟩ := mem_zip_tail he
    rcases h with rfl | rfl
    · exact List.mem_of_getElem? h3
    · exact List.mem_of_getElem? h4

/-- C39: a chain of any number of different vertices, whatever order the hash map has, is sorted from its start to its end. -/
theorem C39_chain (l : List VertexId) (hl : l.Nodup) (h2 : 2 ≤ l.length) (g : DirectedGraph) (h : Evolves (chainCommands l) g) :
    Returns (topologicalSort g) (some l) := by
  obtain ⟨hV, hE⟩ := C01_history_refines_set_semantics _ g h
  rw [chain_run] at hV hE
  have hadj : ∀ u v, Adj g u v ↔ (u, v) ∈ l.zip l.tail := fun u v => by
    unfold Adj
    rw [hE]
    simp [SetGraph.empty]
  have hv : ∀ v, v ∈ l ↔ g.containsVertex v = true := fun v => by
    rw [hV, mem_chain_vertex h2]
    simp [SetGraph.empty]
  refine C39_unique_order g ⟨_, h⟩ ?_ l hl hv ((chain_zip l).imp fun u v => (hadj u v).2)
  exact acyclic_of_order ⟨hl, hv, fun u v huv => mem_zip_tail ((hadj u v).1 huv)⟩

/-- C39: a ring of any number of different vertices, at least two, has no topological order, and `topological_sort` says so. -/
theorem C39_ring (a : VertexId) (m : List VertexId) (b : VertexId) (hl : (a :: m ++ [b]).Nodup) (g : DirectedGraph)
    (h : Evolves (chainCommands (a :: m ++ [b]) ++ [.AddEdge b a]) g) : Returns (topologicalSort g) none := by
  obtain ⟨_, hE⟩ := C01_history_refines_set_semantics _ g h
  rw [show ∀ (G : SetGraph) (c : List GraphCommand) (d : GraphCommand), G.run (c ++ [d]) = (G.run c).step d from fun G c d => by
    simp [SetGraph.run, List.foldl_append], chain_run] at hE
  have hadj : ∀ u v, Adj g u v ↔ (u, v) ∈ (a :: m ++ [b]).zip (a :: m ++ [b]).tail ∨ (u = b ∧ v = a) := fun u v => by
    unfold Adj
    rw [hE]
    simp [SetGraph.empty, SetGraph.step]
  have hne : a ≠ b := by
    rintro rfl
    simp at hl
  have hab : Relation.TransGen (Adj g) a b := by
    have h1 : (a :: m ++ [b]).Pairwise (Relation.TransGen (Adj g)) :=
      List.isChain_iff_pairwise.1 ((chain_zip _).imp fun u v huv => .single ((hadj u v).2 (.inl huv)))
    rw [List.cons_append, List.pairwise_cons] at h1
    exact h1.1 b (by simp)
  have hba : Adj g b a := (hadj b a).2 (.inr ⟨rfl, rfl⟩)
  obtain ⟨r, hr, hs⟩ := C39_exact g ⟨_, h⟩
  cases r with
  | none => exact hr
  | some l =>
    exfalso
    rcases hs.1 rfl with hc | ⟨u, _, _, hu⟩
    · exact hc a (hab.tail hba)
    · exact hne ((hu a (hab.tail hba)).trans (hu b (.head hba hab)).symm)

/-- `C39_unique_order` and `C39_ring` for a chain and for the ring closing it. -/
example : Returns (topologicalSort (graphOf [.AddEdge 4 7, .AddEdge 7 1, .AddEdge 4 1])) (some [4, 7, 1]) ∧
    Returns (topologicalSort (graphOf (chainCommands (4 :: [7, 1] ++ [9]) ++ [.AddEdge 9 4]))) none :=
  ⟨C39_unique_order _ (graphOf_built _) (acyclic_graphOf (fun v => if v = 4 then 0 else if v = 7 then 1 else 2) (by decide)) _ (by decide)
      (fun v => mem_vertices (g := graphOf [.AddEdge 4 7, .AddEdge 7 1, .AddEdge 4 1])) (.cons_cons (by decide) (.cons_cons (by decide) (.singleton _))),
    C39_ring 4 [7, 1] 9 (by decide) _ (by
      show Evolves (([] ++ [GraphCommand.AddEdge 4 7]) ++ [.AddEdge 7 1] ++ [.AddEdge 1 9] ++ [.AddEdge 9 4]) _
      exact (((Evolves.new.apply _).apply _).apply _).apply _)⟩

example : Returns (topologicalSort (GraphCommand.applyCommands (chainCommands [4, 7, 1, 9]) .new)) (some [4, 7, 1, 9]) :=
  C39_chain [4, 7, 1, 9] (by decide) (by decide) _ (by
    show Evolves (([] ++ [GraphCommand.AddEdge 4 7]) ++ [.AddEdge 7 1] ++ [.AddEdge 1 9]) _
    exact ((Evolves.new.apply _).apply _).apply _)

/-! ### C108 -/

/-- C108: `topological_sort` lists the vertices level by level: every vertex it lists has a longest walk ending in it, and the length of
that walk never decreases along the list. -/
theorem C108_level_by_level (g : DirectedGraph) (h : Built g) (l : List VertexId) (hr : Returns (topologicalSort g) (some l)) :
    (∀ v ∈ l, ∃ n, LongestWalkTo g v n) ∧
      ∀ a b m n, Before l a b → LongestWalkTo g a m → LongestWalkTo g b n → m ≤ n := by
  obtain ⟨s, hs, hl, hq⟩ := loop_ends_levels h.wf
  have hs' : Returns (topologicalSort g)
      (if s.removedEdges.length ≠ g.edgeCount then none else some s.res) := by
    refine Returns.bind hs ?_
    split <;> exact Returns.ret _
  have e := hs'.unique hr
  split at e
  · cases e
  · cases e
    have hn : s.res ++ s.startVertices = s.res := by rw [hq, List.append_nil]
    have h1 := hl.some
    have h2 := hl.sorted
    rw [hn] at h1 h2
    refine ⟨h1, ?_⟩
    rintro a b m n ⟨i, j, hij, hi, hj⟩ ha hb
    obtain ⟨hi1, hi2⟩ := List.getElem?_eq_some_iff.1 hi
    obtain ⟨hj1, hj2⟩ := List.getElem?_eq_some_iff.1 hj
    have := (List.pairwise_iff_getElem.1 h2) i j hi1 hj1 hij
    rw [hi2, hj2] at this
    exact this m n ha hb

/-- C108: the first vertices listed are exactly those without predecessor. -/
theorem C108_sources_first (g : DirectedGraph) (h : Built g) (l : List VertexId) (hr : Returns (topologicalSort g) (some l))
    (a b : VertexId) (ha : a ∈ l) (hab : Before l a b) (hb : ∀ u, ¬ Adj g u b) : ∀ u, ¬ Adj g u a := by
  obtain ⟨h1, h2⟩ := C108_level_by_level g h l hr
  obtain ⟨n, hn⟩ := h1 a ha
  have h0 := h2 a b n 0 hab hn (longest_start hb)
  intro u hu
  have := hn.2 [u, a] ⟨by simp, by simp [hu]⟩ (by simp)
  simp at this
  omega

/-- `C108_level_by_level` and `C108_sources_first` for `exDag`: 7 stands before 20, which has no predecessor, so 7 has none either. -/
example : (∀ v ∈ [(5 : VertexId), 7, 3, 20, 11, 8, 2, 9], ∃ n, LongestWalkTo exDag v n) ∧ ∀ u, ¬ Adj exDag u 7 := by
  have h : Returns (topologicalSort exDag) (some [5, 7, 3, 20, 11, 8, 2, 9]) := Mono.returns (n := 10) (mono_sort _) (by decide)
  refine ⟨(C108_level_by_level exDag exDag_built _ h).1, C108_sources_first exDag exDag_built _ h 7 20 (by decide) ⟨1, 3, by decide, rfl, rfl⟩ ?_⟩
  have key : ∀ e ∈ exDag.edges, e.dst ≠ 20 := by decide
  exact fun u hu => key _ (adj_graphOf.1 hu) rfl

/-- In the example graph the longest walks ending in 5, 8 and 9 have 0, 1 and 2 edges; the list is `5 7 3 20 11 8 2 9`. -/
example : topologicalSort exDag 10 = .done (some [5, 7, 3, 20, 11, 8, 2, 9]) ∧ Before [5, 7, 3, 20, 11, 8, 2, 9] 8 9 :=
  ⟨by decide, 5, 7, by decide, rfl, rfl⟩

example : LongestWalkTo exDag 8 1 := by
  have hin : ∀ u v, Adj exDag u v → (⟨u, v⟩ : Edge) ∈ exDag.inboundEdges v := fun u v h => exDag_built.wf.mem_inbound.2 ⟨h, rfl⟩
  have h7 : ∀ u, ¬ Adj exDag u 7 := fun u hu => by
    have := hin u 7 hu
    rw [show exDag.inboundEdges 7 = [] by decide] at this
    simp at this
  have h3 : ∀ u, ¬ Adj exDag u 3 := fun u hu => by
    have := hin u 3 hu
    rw [show exDag.inboundEdges 3 = [] by decide] at this
    simp at this
  refine longest_next (x := 7) (m := 0) (longest_start h7) (by unfold Adj; decide) fun u hu => ⟨0, ?_, Nat.le_refl _⟩
  have := hin u 8 hu
  rw [show exDag.inboundEdges 8 = [⟨7, 8⟩, ⟨3, 8⟩] by decide] at this
  simp only [List.mem_cons, Edge.mk.injEq, and_true, List.not_mem_nil, or_false] at this
  rcases this with rfl | rfl
  · exact longest_start h7
  · exact longest_start h3

end GC
