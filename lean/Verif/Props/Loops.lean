/-
C149: self-loops do not matter for searches of paths without repetition.
-/
import Verif.Spec.Loops
import Verif.Proofs.SameFrom
import Verif.Proofs.Agree
import Verif.Props.Cycle
namespace GC
open DirectedGraph

theorem SameButLoops.symm {g g' : DirectedGraph} (h : SameButLoops g g') : SameButLoops g' g :=
  ⟨fun v => (h.1 v).symm, fun u v hn => (h.2 u v hn).symm⟩

theorem SameButLoops.chain {g g' : DirectedGraph} (h : SameButLoops g g') {l : List VertexId} (hn : l.Nodup) (hc : l.IsChain (Adj g)) :
    l.IsChain (Adj g') := by
  rw [List.isChain_iff_getElem] at hc ⊢
  intro i hi
  refine (h.2 _ _ fun e => ?_).1 (hc i hi)
  have := (List.Nodup.getElem_inj_iff hn).1 e
  omega

theorem SameButLoops.chain_iff {g g' : DirectedGraph} (h : SameButLoops g g') {l : List VertexId} (hn : l.Nodup) :
    l.IsChain (Adj g) ↔ l.IsChain (Adj g') := ⟨h.chain hn, h.symm.chain hn⟩

theorem SameButLoops.reach {g g' : DirectedGraph} (h : SameButLoops g g') {s v : VertexId} (hr : Reach g s v) : Reach g' s v := by
  induction hr with
  | refl => exact .refl
  | @tail a b _ ha ih =>
    by_cases e : a = b
    · exact e ▸ ih
    · exact ih.tail ((h.2 _ _ e).1 ha)

theorem SameButLoops.reach_iff {g g' : DirectedGraph} (h : SameButLoops g g') {s v : VertexId} : Reach g s v ↔ Reach g' s v :=
  ⟨h.reach, h.symm.reach⟩

theorem SameButLoops.simple {g g' : DirectedGraph} (h : SameButLoops g g') {s : VertexId} {l : List VertexId} :
    SimplePathFrom g s l ↔ SimplePathFrom g' s l :=
  ⟨fun ⟨a, b, c⟩ => ⟨h.chain c a, b, c⟩, fun ⟨a, b, c⟩ => ⟨h.symm.chain c a, b, c⟩⟩

/-- C149: adding a self-loop at a vertex of the graph, or removing one, gives such a pair of graphs. -/
theorem C149_commands (g : DirectedGraph) (h : Built g) (v : VertexId) :
    (g.containsVertex v = true → SameButLoops g ((GraphCommand.AddEdge v v).applyTo g)) ∧
    SameButLoops g ((GraphCommand.RemoveEdge v v).applyTo g) := by
  have hV : ∀ c x, ((GraphCommand.applyTo c g).containsVertex x = true ↔ (g.toSet.step c).V x) := fun c x => by
    rw [← toSet_applyTo h.wf]
    rfl
  refine ⟨fun hv => ⟨fun x => ?_, fun a b hn => ?_⟩, fun x => ?_, fun a b hn => ?_⟩
  · rw [hV]
    show g.containsVertex x = true ↔ g.containsVertex x = true ∨ x = v ∨ x = v
    constructor
    · exact .inl
    · rintro (hx | rfl | rfl) <;> assumption
  · rw [adj_applyTo h]
    show Adj g a b ↔ Adj g a b ∨ (⟨a, b⟩ : Edge) = ⟨v, v⟩
    constructor
    · exact .inl
    · rintro (ha | e)
      · exact ha
      · cases e; exact absurd rfl hn
  · rw [hV]
    exact Iff.rfl
  · rw [adj_applyTo h]
    show Adj g a b ↔ Adj g a b ∧ (⟨a, b⟩ : Edge) ≠ ⟨v, v⟩
    exact ⟨fun ha => ⟨ha, fun e => by cases e; exact hn rfl⟩, fun ha => ha.1⟩

/-- C149: the iterators yield the same vertices and the same paths. -/
theorem C149_iterators (g g' : DirectedGraph) (h : Built g) (h' : Built g') (hs : SameButLoops g g') (s : VertexId) :
    (∃ out out', Returns (Prog.collect (DepthFirstIter.next g) (DepthFirstIter.from_ s)) out ∧
      Returns (Prog.collect (DepthFirstIter.next g') (DepthFirstIter.from_ s)) out' ∧ out.Perm out') ∧
    (∃ out out', Returns (Prog.collect (BreadthFirstIter.next g) (BreadthFirstIter.from_ s)) out ∧
      Returns (Prog.collect (BreadthFirstIter.next g') (BreadthFirstIter.from_ s)) out' ∧ out.Perm out') ∧
    (∃ out out', Returns (Prog.collect (DepthFirstPathIter.next g) (DepthFirstPathIter.from_ s)) out ∧
      Returns (Prog.collect (DepthFirstPathIter.next g') (DepthFirstPathIter.from_ s)) out' ∧ out.Perm out') ∧
    ∃ out out', Returns (Prog.collect (BreadthFirstPathIter.next g) (BreadthFirstPathIter.from_ s)) out ∧
      Returns (Prog.collect (BreadthFirstPathIter.next g') (BreadthFirstPathIter.from_ s)) out' ∧ out.Perm out' := by
  refine ⟨?_, ?_, ?_, ?_⟩
  · obtain ⟨o, h1, n, _, h3⟩ := C24_dfs_exact g h s
    obtain ⟨o', h1', n', _, h3'⟩ := C24_dfs_exact g' h' s
    exact ⟨o, o', h1, h1', (List.perm_ext_iff_of_nodup n n').2 fun v => by rw [h3, h3', hs.reach_iff]⟩
  · obtain ⟨o, h1, n, h3, _⟩ := C25_bfs_exact g h s
    obtain ⟨o', h1', n', h3', _⟩ := C25_bfs_exact g' h' s
    exact ⟨o, o', h1, h1', (List.perm_ext_iff_of_nodup n n').2 fun v => by rw [h3, h3', hs.reach_iff]⟩
  · obtain ⟨o, h1, n, h3⟩ := C27_dfs_paths g h s
    obtain ⟨o', h1', n', h3'⟩ := C27_dfs_paths g' h' s
    exact ⟨o, o', h1, h1', (List.perm_ext_iff_of_nodup n n').2 fun v => by rw [h3, h3', hs.simple]⟩
  · obtain ⟨o, h1, n, h3, _⟩ := C28_bfs_paths g h s
    obtain ⟨o', h1', n', h3', _⟩ := C28_bfs_paths g' h' s
    exact ⟨o, o', h1, h1', (List.perm_ext_iff_of_nodup n n').2 fun v => by rw [h3, h3', hs.simple]⟩

/-- C149: gc-short-path finds paths with the same number of edges, or none in both graphs. -/
theorem C149_short_path (H H' : ScoredHeap) (g g' : DirectedGraph) (h : Built g) (h' : Built g') (hs : SameButLoops g g')
    (hsize : g.vertexCount < 2 ^ 63) (hsize' : g'.vertexCount < 2 ^ 63) (s t : VertexId) :
    ∃ r r', Returns (AStar.gcShortPath H g s t) r ∧ Returns (AStar.gcShortPath H' g' s t) r' ∧
      r.map ScoredPath.score = r'.map ScoredPath.score := by
  obtain ⟨r, h1, h2, h3⟩ := C33_short_path_optimal H g h hsize s t
  obtain ⟨r', h1', h2', h3'⟩ := C33_short_path_optimal H' g' h' hsize' s t
  refine ⟨r, r', h1, h1', ?_⟩
  have hnone : r = none ↔ r' = none := by rw [h2, h2', hs.reach_iff]
  cases r with
  | none => rw [hnone.1 rfl]
  | some sp =>
    cases r' with
    | none => cases hnone.2 rfl
    | some sp' =>
      obtain ⟨a1, a2, a3, a4⟩ := h3 sp rfl
      obtain ⟨b1, b2, b3, b4⟩ := h3' sp' rfl
      have k1 := a4 _ ⟨hs.symm.chain b2 b1.1, b1.2⟩
      have k2 := b4 _ ⟨hs.chain a2 a1.1, a1.2⟩
      simp only [Option.map_some, Option.some.injEq]
      omega

/-- C149: gc-csp finds walks with the same number of edges if cycles are excluded, whatever the other constraints are. -/
theorem C149_csp (H H' : ScoredHeap) (g g' : DirectedGraph) (h : Built g) (h' : Built g') (hs : SameButLoops g g') (s t : VertexId)
    (cs : List Constraint) (hc : .Not .ContainsCycle ∈ cs) (k : Int) (hk : k < 2 ^ 63 - 1) :
    FindsWalk H g s t cs k ↔ FindsWalk H' g' s t cs k := by
  rw [csp_found_iff h hk, csp_found_iff h' hk]
  refine Best.congr fun l => and_congr_left fun hm => ?_
  have hn : l.Nodup := by
    have hr : ¬ RepeatsVertex ⟨l⟩ := hm _ hc
    by_contra hnd
    exact hr (repeats_iff.2 hnd)
  exact ⟨fun w => ⟨hs.chain hn w.1, w.2⟩, fun w => ⟨hs.symm.chain hn w.1, w.2⟩⟩

/-- C149: iter_hamiltonian_paths yields the same paths. -/
theorem C149_hamiltonian (g g' : DirectedGraph) (h : Built g) (h' : Built g') (hs : SameButLoops g g') :
    ∃ ps ps', Returns (Prog.collect (Hamiltonian.next g) (Hamiltonian.iter g)) ps ∧
      Returns (Prog.collect (Hamiltonian.next g') (Hamiltonian.iter g')) ps' ∧ ps.Perm ps' := by
  obtain ⟨o, h1, n, h3⟩ := C47_hamiltonian_paths g h
  obtain ⟨o', h1', n', h3'⟩ := C47_hamiltonian_paths g' h'
  refine ⟨o, o', h1, h1', (List.perm_ext_iff_of_nodup n n').2 fun p => ?_⟩
  rw [h3, h3']
  refine and_congr_right fun _ => ?_
  constructor
  · rintro ⟨a, b, c⟩; exact ⟨hs.chain b a, b, fun v => (c v).trans (hs.1 v)⟩
  · rintro ⟨a, b, c⟩; exact ⟨hs.symm.chain b a, b, fun v => (c v).trans (hs.1 v).symm⟩

/-- The example graph of the iterators with self-loops at 1 and 4. -/
def exLoops : DirectedGraph := GraphCommand.applyCommands [.AddEdge 1 1, .AddEdge 4 4] exIterGraph

theorem exLoops_built : Built exLoops := exIterGraph_built.applyCommands _

/-- It has the same edges otherwise. -/
theorem exLoops_same : SameButLoops exIterGraph exLoops := by
  have h1 := (C149_commands exIterGraph exIterGraph_built 1).1 (by decide)
  have h2 := (C149_commands _ (exIterGraph_built.applyCommands [.AddEdge 1 1]) 4).1 (by decide)
  exact ⟨fun v => (h1.1 v).trans (h2.1 v), fun u v hn => (h1.2 u v hn).trans (h2.2 u v hn)⟩

example : exLoops.containsEdge ⟨1, 1⟩ = true ∧ exIterGraph.containsEdge ⟨1, 1⟩ = false ∧
    Prog.collect (DepthFirstPathIter.next exLoops) (DepthFirstPathIter.from_ 1) 9 =
      Prog.collect (DepthFirstPathIter.next exIterGraph) (DepthFirstPathIter.from_ 1) 9 ∧
    AStar.gcShortPath exHeap exLoops 1 4 9 = AStar.gcShortPath exHeap exIterGraph 1 4 9 := by
  refine ⟨?_, ?_, ?_, ?_⟩ <;> decide

/-- If cycles are not excluded self-loops matter: a walk with 3 vertices from 1 to 2 exists with the loop only. -/
example : AStar.gcCsp exHeap exLoops 1 2 [.MinLength 3, .MaxLength 3] 20 = .done (some ⟨⟨[1, 1, 2]⟩, 2⟩) ∧
    AStar.gcCsp exHeap exIterGraph 1 2 [.MinLength 3, .MaxLength 3] 20 = .done none := by
  constructor <;> decide

/-- With cycles excluded the answers are the same. -/
example : AStar.gcCsp exHeap exLoops 1 4 [.Not .ContainsCycle, .ContainsVertex 3] 20 = .done (some ⟨⟨[1, 3, 4]⟩, 2⟩) ∧
    AStar.gcCsp exHeap exIterGraph 1 4 [.Not .ContainsCycle, .ContainsVertex 3] 20 = .done (some ⟨⟨[1, 3, 4]⟩, 2⟩) := by
  constructor <;> decide

/-- The Hamiltonian path of a line is found with a loop on it too. -/
example : let g := GraphCommand.applyCommands [.AddEdge 1 2, .AddEdge 2 3] .new
    Prog.collect (Hamiltonian.next g) (Hamiltonian.iter g) 12 = .done [⟨[1, 2, 3]⟩] ∧
    Prog.collect (Hamiltonian.next ((GraphCommand.AddEdge 2 2).applyTo g)) (Hamiltonian.iter ((GraphCommand.AddEdge 2 2).applyTo g)) 12 =
      .done [⟨[1, 2, 3]⟩] := by
  constructor <;> decide

end GC
