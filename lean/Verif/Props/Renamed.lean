/-
Property C129: the numbers of the vertices do not matter.
-/
import Verif.Proofs.Renamed
import Verif.Props.EndToEnd
namespace GC
open DirectedGraph TopoSort ShortestPath MaxFlow

theorem renamed_new {ρ : VertexId → VertexId} (h : Function.Injective ρ) : Renamed ρ .new .new := ⟨h, fun _ => rfl, fun _ _ => rfl⟩

/-- C129: commands with renamed vertices give the renamed graph. -/
theorem C129_commands (ρ : VertexId → VertexId) (g g' : DirectedGraph) (h : Built g) (h' : Built g') (hr : Renamed ρ g g')
    (cs : List GraphCommand) : Renamed ρ (GraphCommand.applyCommands cs g) (GraphCommand.applyCommands (cs.map (·.rename ρ)) g') := by
  have hset : ∀ (cs : List GraphCommand) (G G' : SetGraph), (∀ v, G'.V (ρ v) ↔ G.V v) → (∀ u v, G'.E ⟨ρ u, ρ v⟩ ↔ G.E ⟨u, v⟩) →
      (∀ v, (G'.run (cs.map (·.rename ρ))).V (ρ v) ↔ (G.run cs).V v) ∧
      ∀ u v, (G'.run (cs.map (·.rename ρ))).E ⟨ρ u, ρ v⟩ ↔ (G.run cs).E ⟨u, v⟩ := by
    intro cs
    induction cs with
    | nil => exact fun G G' h1 h2 => ⟨h1, h2⟩
    | cons c cs ih =>
      intro G G' h1 h2
      refine ih (G.step c) (G'.step (c.rename ρ)) ?_ ?_
      · intro v
        cases c <;> simp [SetGraph.step, GraphCommand.rename, h1, hr.inj.eq_iff]
      · intro u v
        cases c <;> simp [SetGraph.step, GraphCommand.rename, h2, hr.inj.eq_iff]
  have h1 := C01_apply_commands cs g h
  have h2 := C01_apply_commands (cs.map (·.rename ρ)) g' h'
  obtain ⟨h3, h4⟩ := hset cs g.toSet g'.toSet (fun v => by simp [toSet, hr.vertices]) (fun u v => by simp [toSet, hr.edges])
  rw [← h1, ← h2] at h3 h4
  exact ⟨hr.inj, fun v => Bool.eq_iff_iff.2 (h3 v), fun u v => Bool.eq_iff_iff.2 (h4 u v)⟩

/-- Adding one to every id (the largest id becomes 0) renames a graph. -/
theorem exRenamed_inj : Function.Injective (fun v : VertexId => (⟨v.id + 1⟩ : VertexId)) := by
  intro a b h
  cases a
  cases b
  simpa using h

theorem exRenamed (cs : List GraphCommand) : Renamed (fun v => ⟨v.id + 1⟩) (graphOf cs) (graphOf (cs.map (·.rename fun v => ⟨v.id + 1⟩))) :=
  C129_commands _ _ _ Built.new Built.new (renamed_new exRenamed_inj) cs

/-- C129: the vertices and edges listed are the renamed ones, and numbers and degrees stay. -/
theorem C129_listings (ρ : VertexId → VertexId) (g g' : DirectedGraph) (h : Built g) (h' : Built g') (hr : Renamed ρ g g') (v : VertexId) :
    g'.vertices.Perm (g.vertices.map ρ) ∧ g'.edges.Perm (g.edges.map fun e => ⟨ρ e.src, ρ e.dst⟩) ∧ g'.vertexCount = g.vertexCount ∧
    g'.edgeCount = g.edgeCount ∧ g'.degreeOut (ρ v) = g.degreeOut v ∧ g'.degreeIn (ρ v) = g.degreeIn v := by
  have he := hr.edges_perm h h'
  refine ⟨hr.vertices_perm h h', he, hr.vertexCount h h', ?_, ?_, ?_⟩
  · have e1 : ∀ p : Edge → Bool, (∀ e, p (Renamed.edge ρ e) = p e) → (g'.edges.filter p).length = (g.edges.filter p).length := by
      intro p hp
      rw [(he.filter p).length_eq, List.filter_map, List.length_map]
      congr 1
      exact List.filter_congr fun e _ => hp e
    rw [C04_edge_count_formula g h, C04_edge_count_formula g' h', e1, e1]
    · intro e; simp [Renamed.edge, hr.inj.eq_iff]
    · intro e; simp [Renamed.edge, hr.inj.eq_iff]
  · obtain ⟨h1, _⟩ := C03_degrees_exact g h v
    obtain ⟨h2, _⟩ := C03_degrees_exact g' h' (ρ v)
    rw [h1, h2, (he.filter _).length_eq, List.filter_map, List.length_map]
    congr 1
    exact List.filter_congr fun e _ => by simp [Renamed.edge, hr.inj.eq_iff]
  · obtain ⟨_, h1⟩ := C03_degrees_exact g h v
    obtain ⟨_, h2⟩ := C03_degrees_exact g' h' (ρ v)
    rw [h1, h2, (he.filter _).length_eq, List.filter_map, List.length_map]
    congr 1
    exact List.filter_congr fun e _ => by simp [Renamed.edge, hr.inj.eq_iff]

/-- C129: the traversals visit the renamed vertices, and the iterators over paths yield the renamed paths. -/
theorem C129_iterators (ρ : VertexId → VertexId) (g g' : DirectedGraph) (h : Built g) (h' : Built g') (hr : Renamed ρ g g') (s : VertexId) :
    (∃ out out', Returns (Prog.collect (DepthFirstIter.next g) (DepthFirstIter.from_ s)) out ∧
      Returns (Prog.collect (DepthFirstIter.next g') (DepthFirstIter.from_ (ρ s))) out' ∧ out'.Perm (out.map ρ)) ∧
    (∃ out out', Returns (Prog.collect (BreadthFirstIter.next g) (BreadthFirstIter.from_ s)) out ∧
      Returns (Prog.collect (BreadthFirstIter.next g') (BreadthFirstIter.from_ (ρ s))) out' ∧ out'.Perm (out.map ρ)) ∧
    (∃ out out', Returns (Prog.collect (DepthFirstPathIter.next g) (DepthFirstPathIter.from_ s)) out ∧
      Returns (Prog.collect (DepthFirstPathIter.next g') (DepthFirstPathIter.from_ (ρ s))) out' ∧
      out'.Perm (out.map fun p => ⟨p.vertices.map ρ⟩)) ∧
    ∃ out out', Returns (Prog.collect (BreadthFirstPathIter.next g) (BreadthFirstPathIter.from_ s)) out ∧
      Returns (Prog.collect (BreadthFirstPathIter.next g') (BreadthFirstPathIter.from_ (ρ s))) out' ∧
      out'.Perm (out.map fun p => ⟨p.vertices.map ρ⟩) := by
  have hinj : Function.Injective fun p : Path => (⟨p.vertices.map ρ⟩ : Path) := by
    intro a b hab
    cases a
    cases b
    simpa [(List.map_injective_iff.2 hr.inj).eq_iff] using hab
  have hv : ∀ out out' : List VertexId, out.Nodup → out'.Nodup → (∀ v, v ∈ out ↔ Reach g s v) → (∀ v, v ∈ out' ↔ Reach g' (ρ s) v) →
      out'.Perm (out.map ρ) := by
    intro out out' n n' m m'
    refine (List.perm_ext_iff_of_nodup n' ((hr.nodup _).2 n)).2 fun v => ?_
    obtain ⟨v, rfl⟩ := hr.surj v
    rw [m', hr.mem, m, hr.reach]
  have hp : ∀ out out' : List Path, out.Nodup → out'.Nodup → (∀ p : Path, p ∈ out ↔ SimplePathFrom g s p.vertices) →
      (∀ p : Path, p ∈ out' ↔ SimplePathFrom g' (ρ s) p.vertices) → out'.Perm (out.map fun p => ⟨p.vertices.map ρ⟩) := by
    intro out out' n n' m m'
    refine (List.perm_ext_iff_of_nodup n' ((List.nodup_map_iff hinj).2 n)).2 fun p => ?_
    obtain ⟨l⟩ := p
    obtain ⟨l, rfl⟩ := hr.list l
    rw [m', hr.simplePath, show (⟨l.map ρ⟩ : Path) = (fun p : Path => (⟨p.vertices.map ρ⟩ : Path)) ⟨l⟩ from rfl,
      List.mem_map_of_injective hinj, m]
  refine ⟨?_, ?_, ?_, ?_⟩
  · obtain ⟨o, h1, h2, _, h3⟩ := C24_dfs_exact g h s
    obtain ⟨o', h1', h2', _, h3'⟩ := C24_dfs_exact g' h' (ρ s)
    exact ⟨o, o', h1, h1', hv o o' h2 h2' h3 h3'⟩
  · obtain ⟨o, h1, h2, h3, _⟩ := C25_bfs_exact g h s
    obtain ⟨o', h1', h2', h3', _⟩ := C25_bfs_exact g' h' (ρ s)
    exact ⟨o, o', h1, h1', hv o o' h2 h2' h3 h3'⟩
  · obtain ⟨o, h1, h2, h3⟩ := C27_dfs_paths g h s
    obtain ⟨o', h1', h2', h3'⟩ := C27_dfs_paths g' h' (ρ s)
    exact ⟨o, o', h1, h1', hp o o' h2 h2' h3 h3'⟩
  · obtain ⟨o, h1, h2, h3, _⟩ := C28_bfs_paths g h s
    obtain ⟨o', h1', h2', h3', _⟩ := C28_bfs_paths g' h' (ρ s)
    exact ⟨o, o', h1, h1', hp o o' h2 h2' h3 h3'⟩

/-- C129: gc-short-path finds a path of the same length, or none. -/
theorem C129_short_path (H H' : ScoredHeap) (ρ : VertexId → VertexId) (g g' : DirectedGraph) (h : Built g) (h' : Built g')
    (hr : Renamed ρ g g') (hsize : g.vertexCount < 2 ^ 63) (start end_ : VertexId) :
    ∃ r r', Returns (AStar.gcShortPath H g start end_) r ∧ Returns (AStar.gcShortPath H' g' (ρ start) (ρ end_)) r' ∧
      r.map ScoredPath.score = r'.map ScoredPath.score := by
  obtain ⟨r, h1, h2, h3⟩ := C33_short_path_optimal H g h hsize start end_
  obtain ⟨r', h1', h2', h3'⟩ := C33_short_path_optimal H' g' h' (by rwa [hr.vertexCount h h']) (ρ start) (ρ end_)
  refine ⟨r, r', h1, h1', ?_⟩
  rw [hr.reach, ← h2] at h2'
  cases r with
  | none => rw [h2'.2 rfl]
  | some sp =>
    cases r' with
    | none => cases h2'.1 rfl
    | some sp' =>
      obtain ⟨a1, _, a2, a3⟩ := h3 sp rfl
      obtain ⟨b1, _, b2, b3⟩ := h3' sp' rfl
      obtain ⟨l, hl⟩ := hr.list sp'.path.vertices
      rw [hl] at b1 b2 b3
      have := a3 l ((hr.walk _ _ _).1 b1)
      have := b3 _ ((hr.walk _ _ _).2 a1)
      simp only [List.length_map] at *
      simp only [Option.map_some, Option.some.injEq]
      omega

/-- C129: gc-csp with renamed constraints says that no path exists exactly if it did before, and two paths it finds are equally long. -/
theorem C129_csp (H H' : ScoredHeap) (ρ : VertexId → VertexId) (g g' : DirectedGraph) (h : Built g) (h' : Built g') (hr : Renamed ρ g g')
    (start end_ : VertexId) (cs : List Constraint) :
    (Returns (AStar.gcCsp H g start end_ cs) none ↔ Returns (AStar.gcCsp H' g' (ρ start) (ρ end_) (cs.map (·.rename ρ))) none) ∧
    ∀ sp sp', Returns (AStar.gcCsp H g start end_ cs) (some sp) →
      Returns (AStar.gcCsp H' g' (ρ start) (ρ end_) (cs.map (·.rename ρ))) (some sp') → sp.score = sp'.score := by
  have score : ∀ (H : ScoredHeap) (g : DirectedGraph), Built g → ∀ s e cs sp, Returns (AStar.gcCsp H g s e cs) (some sp) →
      WalkFromTo g s e sp.path.vertices ∧ (∀ c ∈ cs, Satisfies sp c) ∧ ∀ g', AStar.sumScore AStar.oneWeightedEdge AStar.zeroHeuristic g' sp.path = .done sp.score := by
    intro H g h s e cs sp hsp
    obtain ⟨a1, a2, a, b, ha, hb, hab⟩ := C35_constrained_valid H g h _ _ s e cs sp hsp
    refine ⟨a1, a2, fun g' => ?_⟩
    have hne : sp.path.vertices ≠ [] := by intro e; rw [e] at a1; cases a1.2.1
    rw [unit_score g' _ hne]
    rw [oneWeightedEdge_eq g _ hne] at ha
    split at ha
    · rename_i hle
      cases ha
      cases hb
      rw [if_pos hle, hab]
      simp
    · cases ha
  have hsc : ∀ (q : Path) (g g' : DirectedGraph), AStar.sumScore AStar.oneWeightedEdge AStar.zeroHeuristic g' ⟨q.vertices.map ρ⟩ =
      AStar.sumScore AStar.oneWeightedEdge AStar.zeroHeuristic g q := by
    intro q g g'
    unfold AStar.sumScore AStar.oneWeightedEdge AStar.zeroHeuristic Path.size
    rw [List.length_map]
  constructor
  · rw [C37_not_reachable_iff H g h, C37_not_reachable_iff H' g' h']
    refine and_congr (not_congr ⟨?_, ?_⟩) ⟨?_, ?_⟩
    · rintro ⟨q, h1, h2, h3⟩
      refine ⟨⟨q.vertices.map ρ⟩, (hr.walk _ _ _).2 h1, by simpa using h2, fun c hc => ?_⟩
      obtain ⟨c, hcm, rfl⟩ := List.mem_map.1 hc
      have := (hr.satisfies ⟨q, (q.vertices.length : Int) - 1⟩ c).2 (h3 c hcm)
      simpa [Renamed.scored] using this
    · rintro ⟨⟨l⟩, h1, h2, h3⟩
      obtain ⟨l, rfl⟩ := hr.list l
      refine ⟨⟨l⟩, (hr.walk _ _ _).1 h1, by simpa using h2, fun c hc => ?_⟩
      have := h3 _ (List.mem_map_of_mem hc)
      refine (hr.satisfies ⟨⟨l⟩, (l.length : Int) - 1⟩ c).1 ?_
      simpa [Renamed.scored] using this
    · intro k sp u v h1 h2 h3
      obtain ⟨⟨l⟩, s⟩ := sp
      obtain ⟨l, rfl⟩ := hr.list l
      obtain ⟨u, rfl⟩ := hr.surj u
      obtain ⟨v, rfl⟩ := hr.surj v
      have := k ⟨⟨l⟩, s⟩ u v ((hr.unpruned cs start _).1 h1) (by rwa [List.getLast?_map, hr.opt] at h2) ((hr.adj _ _).1 h3)
      simpa using this
    · intro k sp u v h1 h2 h3
      have := k (Renamed.scored ρ sp) (ρ u) (ρ v) ((hr.unpruned cs start _).2 h1) (by
        rw [show (Renamed.scored ρ sp).path.vertices = sp.path.vertices.map ρ from rfl, List.getLast?_map, hr.opt]; exact h2) ((hr.adj _ _).2 h3)
      simpa [Renamed.scored] using this
  · intro sp sp' h1 h2
    obtain ⟨a1, a2, a3⟩ := score H g h _ _ _ _ h1
    obtain ⟨b1, b2, b3⟩ := score H' g' h' _ _ _ _ h2
    refine le_antisymm ?_ ?_
    · obtain ⟨⟨l⟩, s⟩ := sp'
      obtain ⟨l, rfl⟩ := hr.list l
      obtain ⟨x, hx, hle⟩ := C36_constrained_optimal H g h _ _ start end_ cs (monotone_unit g start) _ h1 ⟨⟨l⟩, s⟩ ((hr.walk _ _ _).1 b1)
        (by rw [← hsc ⟨l⟩ g g']; exact b3 g') fun c hc => (hr.satisfies ⟨⟨l⟩, s⟩ c).1 (b2 _ (List.mem_map_of_mem hc))
      cases hx
      exact hle
    · obtain ⟨x, hx, hle⟩ := C36_constrained_optimal H' g' h' _ _ _ _ _ (monotone_unit g' (ρ start)) _ h2 (Renamed.scored ρ sp)
        ((hr.walk _ _ _).2 a1) (by exact (hsc sp.path g g').trans (a3 g)) fun c hc => by
          obtain ⟨c, hcm, rfl⟩ := List.mem_map.1 hc
          exact (hr.satisfies sp c).2 (a2 c hcm)
      cases hx
      exact hle

/-- C129: `topological_sort` finds an order, and `is_dag` answers yes, exactly if they did before. -/
theorem C129_topological_sort (ρ : VertexId → VertexId) (g g' : DirectedGraph) (h : Built g) (h' : Built g') (hr : Renamed ρ g g') :
    ∃ r r', Returns (topologicalSort g) r ∧ Returns (topologicalSort g') r' ∧ r.isSome = r'.isSome ∧
      Returns (isDag g) r.isSome ∧ Returns (isDag g') r.isSome := by
  obtain ⟨r, h1, h2⟩ := C39_exact g h
  obtain ⟨r', h1', h2'⟩ := C39_exact g' h'
  have e : r.isSome = r'.isSome := by
    rw [Bool.eq_iff_iff, h2, h2', hr.acyclic, hr.surj.exists (p := fun u => OnlyDeadEndLoop g' u)]
    exact or_congr Iff.rfl (exists_congr fun u => (hr.onlyDeadEndLoop u).symm)
  obtain ⟨x, a1, a2, _⟩ := C39_is_dag_try_dag g h
  obtain ⟨x', b1, b2, _⟩ := C39_is_dag_try_dag g' h'
  cases a1.unique h1
  cases b1.unique h1'
  exact ⟨r, r', h1, h1', e, a2, e ▸ b2⟩

/-- C129: with the weights of the renamed edges, `bellman_ford` reports a negative cycle exactly if it did before, and otherwise the renamed
vertices have the same scores; `spfa` likewise. -/
theorem C129_weights (ρ : VertexId → VertexId) (g g' : DirectedGraph) (h : Built g) (h' : Built g') (hr : Renamed ρ g g') (w w' : WeightFn)
    (hw : SmallWeights g w) (hww : ∀ u v, w' ⟨ρ u, ρ v⟩ = w ⟨u, v⟩) (start : VertexId) :
    (∀ r r', bellmanFord g w start = .done r → bellmanFord g' w' (ρ start) = .done r' →
      (r = none ↔ r' = none) ∧ ∀ m m', r = some m → r' = some m' →
        (m'.map fun p => (p.1, p.2.score)).Perm (m.map fun p => (ρ p.1, p.2.score))) ∧
    ((∃ m, Returns (spfa g w start) m) ↔ ∃ m', Returns (spfa g' w' (ρ start)) m') ∧
    ∀ m m', Returns (spfa g w start) m → Returns (spfa g' w' (ρ start)) m' →
      (m'.map fun p => (p.1, p.2.score)).Perm (m.map fun p => (ρ p.1, p.2.score)) := by
  have hw' := hr.smallWeights h h' hww hw
  have same : ∀ m m' : Scores, LightestWalks g w start m → LightestWalks g' w' (ρ start) m' →
      (m'.map fun p => (p.1, p.2.score)).Perm (m.map fun p => (ρ p.1, p.2.score)) := by
    intro m m' hm hm'
    have nd : (m.map fun p => (ρ p.1, p.2.score)).Nodup := by
      apply List.Nodup.of_map Prod.fst
      rw [List.map_map, show (Prod.fst ∘ fun p : VertexId × ScoredPath => (ρ p.1, p.2.score)) = ρ ∘ Prod.fst from rfl, ← List.map_map]
      exact (hr.nodup _).2 hm.1
    have nd' : (m'.map fun p => (p.1, p.2.score)).Nodup := by
      apply List.Nodup.of_map Prod.fst
      rw [List.map_map]
      exact hm'.1
    have eq : ∀ v sp sp', (v, sp) ∈ m → (ρ v, sp') ∈ m' → sp.score = sp'.score := by
      intro v sp sp' h1 h2
      obtain ⟨a1, a2, a3⟩ := hm.2.2 _ _ h1
      obtain ⟨b1, b2, b3⟩ := hm'.2.2 _ _ h2
      obtain ⟨l, hl⟩ := hr.list sp'.path.vertices
      rw [hl] at b1 b2
      have l1 := a3 _ ((hr.walk _ _ _).1 b1)
      have l2 := b3 _ ((hr.walk _ _ _).2 a1)
      rw [Renamed.walkWeight ρ hww] at b2 l2
      omega
    refine (List.perm_ext_iff_of_nodup nd' nd).2 fun x => ⟨fun hx => ?_, fun hx => ?_⟩
    · obtain ⟨⟨v', sp'⟩, hp', rfl⟩ := List.mem_map.1 hx
      obtain ⟨v, rfl⟩ := hr.surj v'
      have hv : v ∈ m.map Prod.fst := by
        rw [hm.2.1, ← hr.reach, ← hm'.2.1]
        exact List.mem_map.2 ⟨_, hp', rfl⟩
      obtain ⟨⟨v1, sp⟩, hp, e⟩ := List.mem_map.1 hv
      cases e
      exact List.mem_map.2 ⟨_, hp, by rw [eq _ _ _ hp hp']⟩
    · obtain ⟨⟨v, sp⟩, hp, rfl⟩ := List.mem_map.1 hx
      have hv : ρ v ∈ m'.map Prod.fst := by
        rw [hm'.2.1, hr.reach, ← hm.2.1]
        exact List.mem_map.2 ⟨_, hp, rfl⟩
      obtain ⟨⟨v1, sp'⟩, hp', e⟩ := List.mem_map.1 hv
      dsimp only at e
      subst e
      exact List.mem_map.2 ⟨_, hp', by rw [eq _ _ _ hp hp']⟩
  have e1 := C45_spfa_returns_iff g h w hw start
  have e2 := C45_spfa_returns_iff g' h' w' hw' (ρ start)
  refine ⟨fun r r' h1 h1' => ⟨?_, ?_⟩, ?_, fun m m' h1 h1' => same m m' (e1.2 m h1) (e2.2 m' h1')⟩
  · rw [C44_none_iff_negative_cycle g h w hw start r h1, C44_none_iff_negative_cycle g' h' w' hw' (ρ start) r' h1', hr.negativeCycle hww]
  · rintro m m' rfl rfl
    exact same m m' (C43_bellman_ford_exact g h w hw start m h1) (C43_bellman_ford_exact g' h' w' hw' (ρ start) m' h1')
  · rw [e1.1, e2.1, hr.negativeCycle hww]

/-- C129: the Hamiltonian paths found are the renamed ones, and a Hamiltonian cycle is found exactly if it was before. -/
theorem C129_hamiltonian (ρ : VertexId → VertexId) (g g' : DirectedGraph) (h : Built g) (h' : Built g') (hr : Renamed ρ g g') :
    (∃ ps ps', Returns (Prog.collect (Hamiltonian.next g) (Hamiltonian.iter g)) ps ∧
      Returns (Prog.collect (Hamiltonian.next g') (Hamiltonian.iter g')) ps' ∧ ps'.Perm (ps.map fun p => ⟨p.vertices.map ρ⟩)) ∧
    (∃ b, Returns (Hamiltonian.isHamiltonian g) b ∧ Returns (Hamiltonian.isHamiltonian g') b) ∧
    ∃ r r', Returns (CycleAlg.hamiltonian g) r ∧ Returns (CycleAlg.hamiltonian g') r' ∧ (r = none ↔ r' = none) := by
  have hinj : Function.Injective fun p : Path => (⟨p.vertices.map ρ⟩ : Path) := by
    intro a b hab
    cases a
    cases b
    simpa [(List.map_injective_iff.2 hr.inj).eq_iff] using hab
  refine ⟨?_, ?_, ?_⟩
  · obtain ⟨ps, h1, h2, h3⟩ := C47_hamiltonian_paths g h
    obtain ⟨ps', h1', h2', h3'⟩ := C47_hamiltonian_paths g' h'
    refine ⟨ps, ps', h1, h1', (List.perm_ext_iff_of_nodup h2' ((List.nodup_map_iff hinj).2 h2)).2 fun p => ?_⟩
    obtain ⟨l⟩ := p
    obtain ⟨l, rfl⟩ := hr.list l
    rw [h3', hr.hamiltonianPath, show (⟨l.map ρ⟩ : Path) = (fun p : Path => (⟨p.vertices.map ρ⟩ : Path)) ⟨l⟩ from rfl,
      List.mem_map_of_injective hinj, h3]
    simp
  · obtain ⟨b, h1, h2⟩ := C47_is_hamiltonian g h
    obtain ⟨b', h1', h2'⟩ := C47_is_hamiltonian g' h'
    have : b = b' := by
      rw [Bool.eq_iff_iff, h2, h2']
      constructor
      · rintro ⟨l, hl⟩
        exact ⟨_, (hr.hamiltonianPath l).2 hl⟩
      · rintro ⟨l, hl⟩
        obtain ⟨l, rfl⟩ := hr.list l
        exact ⟨_, (hr.hamiltonianPath l).1 hl⟩
    exact ⟨b, h1, this ▸ h1'⟩
  · obtain ⟨r, h1, _, h2⟩ := C51_hamiltonian_cycle g h
    obtain ⟨r', h1', _, h2'⟩ := C51_hamiltonian_cycle g' h'
    refine ⟨r, r', h1, h1', ?_⟩
    rw [h2, h2']
    constructor
    · intro k l hl
      obtain ⟨l, rfl⟩ := hr.list l
      exact k l ((hr.hamiltonianCycle l).1 hl)
    · intro k l hl
      exact k _ ((hr.hamiltonianCycle l).2 hl)

theorem cycles_renamed {ρ : VertexId → VertexId} {g g' : DirectedGraph} (h : Built g) (h' : Built g') (hr : Renamed ρ g g')
    (hc : (∃ r, IsRoot g r) ∨ StronglyConnected g) {cs cs' : List Cycle} (h1 : Returns (CycleAlg.takeAll g) cs)
    (h2 : Returns (CycleAlg.takeAll g') cs') {l : List VertexId} (hl : ∃ c ∈ cs, c.vertices ~r l) : ∃ c ∈ cs', c.vertices ~r l.map ρ := by
  obtain ⟨c, hcm, hrot⟩ := hl
  obtain ⟨x, a1, _, a3, _⟩ := C48_cycle_iter_sound g h
  cases a1.unique h1
  obtain ⟨hcy, _⟩ := a3 c hcm
  have hcy' := (hr.isCycle _).2 hcy
  have key : ∃ d ∈ cs', d.vertices ~r c.vertices.map ρ := by
    rcases hc with ⟨r, hroot⟩ | hsc
    · obtain ⟨y, c1, c2⟩ := C49_exact g h
      cases c1.unique h1
      obtain ⟨y', d1, d2⟩ := C49_exact g' h'
      cases d1.unique h2
      obtain ⟨s, v, e1, e2, e3⟩ := (c2 _ hcy).1 ⟨c, hcm, List.IsRotated.refl _⟩
      rcases e1 with e1 | e1
      · exact (d2 _ hcy').2 ⟨ρ s, ρ v, .inl ((hr.isRoot s).2 e1), (hr.mem _ _).2 e2, hr.reach_of e3⟩
      · exact absurd hroot (e1.1 r)
    · obtain ⟨y', d1, d2⟩ := C49_complete_partial g' h' (.inr (hr.strong.2 hsc))
      cases d1.unique h2
      exact d2 _ hcy'
  obtain ⟨d, hd, hrot'⟩ := key
  exact ⟨d, hd, hrot'.trans (hrot.map ρ)⟩

theorem cycles_length {ρ : VertexId → VertexId} {g g' : DirectedGraph} (h : Built g) (h' : Built g') (hr : Renamed ρ g g')
    (hc : (∃ r, IsRoot g r) ∨ StronglyConnected g) {cs cs' : List Cycle} (h1 : Returns (CycleAlg.takeAll g) cs)
    (h2 : Returns (CycleAlg.takeAll g') cs') : cs.length ≤ cs'.length := by
  classical
  obtain ⟨σ, hs, hσ, _⟩ := hr.inverse
  obtain ⟨x, a1, a2, _, a4⟩ := C48_cycle_iter_sound g h
  cases a1.unique h1
  have key : ∀ c ∈ cs, ∃ d ∈ cs', d.vertices ~r c.vertices.map ρ := fun c hcm => cycles_renamed h h' hr hc h1 h2 ⟨c, hcm, List.IsRotated.refl _⟩
  choose! f hf1 hf2 using key
  have nd : (cs.map f).Nodup := by
    refine a2.map_on ?_
    intro c hcm d hd e
    have r1 := hf2 c hcm
    have r2 := hf2 d hd
    rw [e] at r1
    have := (r1.symm.trans r2).map σ
    simp only [List.map_map, Function.comp_def, hσ, List.map_id'] at this
    exact a4 c hcm d hd this
  have := List.Nodup.length_le_of_subset nd (l₂ := cs') fun d hd => by
    obtain ⟨c, hcm, rfl⟩ := List.mem_map.1 hd
    exact hf1 c hcm
  simpa using this

/-- C129 (partial), cycles: in a graph with a vertex without incoming edge, or one that is strongly connected, the cycles listed are, up to
rotation, the renamed ones, and equally many. Missing: other graphs (`C129_counterexample`). -/
theorem C129_cycles_partial (ρ : VertexId → VertexId) (g g' : DirectedGraph) (h : Built g) (h' : Built g') (hr : Renamed ρ g g')
    (hc : (∃ r, IsRoot g r) ∨ StronglyConnected g) :
    ∃ cs cs', Returns (CycleAlg.takeAll g) cs ∧ Returns (CycleAlg.takeAll g') cs' ∧ cs.length = cs'.length ∧
      ∀ l, (∃ c ∈ cs, c.vertices ~r l) ↔ ∃ c ∈ cs', c.vertices ~r l.map ρ := by
  obtain ⟨cs, h1, _⟩ := C48_cycle_iter_sound g h
  obtain ⟨cs', h1', _⟩ := C48_cycle_iter_sound g' h'
  obtain ⟨σ, hs, hσ, _⟩ := hr.inverse
  have hc' : (∃ r, IsRoot g' r) ∨ StronglyConnected g' := by
    rwa [hr.strong, hr.surj.exists, show (∃ v, IsRoot g' (ρ v)) ↔ ∃ v, IsRoot g v from exists_congr hr.isRoot]
  refine ⟨cs, cs', h1, h1', le_antisymm (cycles_length h h' hr hc h1 h1') (cycles_length h' h hs hc' h1' h1), fun l =>
    ⟨cycles_renamed h h' hr hc h1 h1', fun hl => ?_⟩⟩
  have := cycles_renamed h' h hs hc' h1' h1 hl
  simpa only [List.map_map, Function.comp_def, hσ, List.map_id'] using this

/-- C129 (partial), `max_flow`: with the capacities of the renamed edges the reported value is the same if every vertex other than the ends has
at most one incoming edge, or every such vertex has at most one outgoing edge; and on every graph it is 0 exactly if it was before.
Missing: other graphs (`C129_counterexample`). -/
theorem C129_max_flow_partial (ρ : VertexId → VertexId) (g g' : DirectedGraph) (h : Built g) (h' : Built g') (hr : Renamed ρ g g')
    (cap cap' : Edge → UInt64) (hcap : ∀ u v, cap' ⟨ρ u, ρ v⟩ = cap ⟨u, v⟩) (s t : VertexId) (hst : s ≠ t) (n n' : Nat) (m m' : FlowMap)
    (hm : Returns (maxFlow g cap s t) (n, m)) (hm' : Returns (maxFlow g' cap' (ρ s) (ρ t)) (n', m')) :
    (n = 0 ↔ n' = 0) ∧
    ((∀ u u' v, v ≠ s → v ≠ t → Adj g u v → Adj g u' v → u = u') ∨ (∀ u v v', u ≠ s → u ≠ t → Adj g u v → Adj g u v' → v = v') →
      n = n') := by
  have hst' : ρ s ≠ ρ t := fun e => hst (hr.inj e)
  constructor
  · rw [C55_zero_partial g h cap s t hst n m hm, C55_zero_partial g' h' cap' _ _ hst' n' m' hm', hr.isMaxFlowValue h h' hcap]
  · rintro (hin | hout)
    · have h1 := C55_single_entry_partial g h cap s t hst hin n m hm
      have h2 := C55_single_entry_partial g' h' cap' _ _ hst' (by
        rw [hr.all]; intro u; rw [hr.all]; intro u'; rw [hr.all]; intro v
        simp only [hr.adj, ne_eq, hr.inj.eq_iff]
        exact hin u u' v) n' m' hm'
      rw [hr.isMaxFlowValue h h' hcap] at h2
      exact maxFlowValue_unique h1 h2
    · have h1 := C55_single_exit_partial g h cap s t hst hout n m hm
      have h2 := C55_single_exit_partial g' h' cap' _ _ hst' (by
        rw [hr.all]; intro u; rw [hr.all]; intro u'; rw [hr.all]; intro v
        simp only [hr.adj, ne_eq, hr.inj.eq_iff]
        exact hout u u' v) n' m' hm'
      rw [hr.isMaxFlowValue h h' hcap] at h2
      exact maxFlowValue_unique h1 h2

/-- C129 is false for the value reported by `max_flow` and for the number of cycles listed: they differ already between two graphs with the same
vertices and the same edges, whose hash maps iterate in different orders. -/
theorem C129_counterexample :
    (∃ g g', Built g ∧ Built g' ∧ Renamed id g g' ∧ (∃ m, Returns (maxFlow g (fun _ => 1) 1 6) (2, m)) ∧
      ∃ m, Returns (maxFlow g' (fun _ => 1) 1 6) (1, m)) ∧
    ∃ g g', Built g ∧ Built g' ∧ Renamed id g g' ∧ Returns (CycleAlg.count g) 2 ∧ Returns (CycleAlg.count g') 1 := by
  constructor
  · obtain ⟨g, g', h, h', hs, h1, h2⟩ := C83_counterexample_max_flow
    exact ⟨g, g', h, h', ⟨Function.injective_id, fun v => (hs.1 v).symm, fun u v => (hs.2 ⟨u, v⟩).symm⟩, h1, h2⟩
  · obtain ⟨g, g', h, h', hs, h1, h2⟩ := C83_counterexample_cycles
    exact ⟨g, g', h, h', ⟨Function.injective_id, fun v => (hs.1 v).symm, fun u v => (hs.2 ⟨u, v⟩).symm⟩, h1, h2⟩

/-! ### Worked cases -/

/-- The commands of a graph with a cycle through 1, 2 and 3, and a vertex 0 before it. -/
abbrev exLoop : List GraphCommand := [.AddEdge 0 1, .AddEdge 1 2, .AddEdge 2 3, .AddEdge 3 1]

/-- One added to every id of `exLoop`, in `C129_commands`, `C129_listings`, `C129_iterators`, `C129_short_path`, `C129_csp`,
`C129_topological_sort` and `C129_hamiltonian`. -/
example (H H' : ScoredHeap) := And.intro
  (C129_commands _ _ _ Built.new Built.new (renamed_new exRenamed_inj) exLoop)
  (And.intro (C129_listings _ _ _ (Built.new.applyCommands _) (Built.new.applyCommands _) (exRenamed exLoop) 1)
    (And.intro (C129_iterators _ _ _ (Built.new.applyCommands _) (Built.new.applyCommands _) (exRenamed exLoop) 1)
      (And.intro (C129_short_path H H' _ _ _ (Built.new.applyCommands _) (Built.new.applyCommands _) (exRenamed exLoop) (by decide) 1 3)
        (And.intro (C129_csp H H' _ _ _ (Built.new.applyCommands _) (Built.new.applyCommands _) (exRenamed exLoop) 0 1 [.ContainsVertex 3])
          (And.intro (C129_topological_sort _ _ _ (Built.new.applyCommands _) (Built.new.applyCommands _) (exRenamed exLoop))
            (C129_hamiltonian _ _ _ (Built.new.applyCommands _) (Built.new.applyCommands _) (exRenamed exLoop)))))))

/-- The renamed commands are 1→2, 2→3, 3→4, 4→2. -/
example : exLoop.map (·.rename fun v => ⟨v.id + 1⟩) = [.AddEdge 1 2, .AddEdge 2 3, .AddEdge 3 4, .AddEdge 4 2] := by decide

/-- `C129_weights` for `exLoop`, an edge weighing the id it comes from. -/
example := C129_weights _ _ _ (Built.new.applyCommands _) (Built.new.applyCommands _) (exRenamed exLoop)
  (fun e => (e.src.id.toNat : Int)) (fun e => ((e.src.id - 1).toNat : Int))
  (by intro e he; exact (by decide : ∀ e ∈ (graphOf exLoop).edges, |(e.src.id.toNat : Int)| * (graphOf exLoop).vertexCount < 2 ^ 63 - 1) e (adj_graphOf.1 he))
  (by intro u v; simp) 0

/-- The vertex 0 of `exLoop` has no incoming edge, as `C129_cycles_partial` asks. -/
example := C129_cycles_partial _ _ _ (Built.new.applyCommands _) (Built.new.applyCommands _) (exRenamed exLoop)
  (.inl ⟨0, by decide, fun u hu => by
    have : ∀ e ∈ (graphOf exLoop).edges, e.dst ≠ 0 := by decide
    exact this _ (adj_graphOf.1 hu) rfl⟩)

/-- The network 1→2→4, 1→3→4 and the one with 1 added to every id in `C129_max_flow_partial`: both calls return 6. -/
example : ∃ m m', Returns (maxFlow (graphOf [.AddEdge 1 2, .AddEdge 2 4, .AddEdge 1 3, .AddEdge 3 4]) (fun _ => 3) 1 4) (6, m) ∧
    Returns (maxFlow (graphOf [.AddEdge 2 3, .AddEdge 3 5, .AddEdge 2 4, .AddEdge 4 5]) (fun _ => 3) 2 5) (6, m') := by
  obtain ⟨m, h⟩ := flow_value (g := graphOf [.AddEdge 1 2, .AddEdge 2 4, .AddEdge 1 3, .AddEdge 3 4]) (cap := fun _ => 3) (s := 1) (t := 4)
    (k := 30) (n := 6) (by decide)
  obtain ⟨m', h'⟩ := flow_value (g := graphOf [.AddEdge 2 3, .AddEdge 3 5, .AddEdge 2 4, .AddEdge 4 5]) (cap := fun _ => 3) (s := 2) (t := 5)
    (k := 30) (n := 6) (by decide)
  have := C129_max_flow_partial _ _ _ (graphOf_built _) (graphOf_built _)
    (exRenamed [.AddEdge 1 2, .AddEdge 2 4, .AddEdge 1 3, .AddEdge 3 4]) _ _ (fun _ _ => rfl) 1 4 (by decide) 6 6 m m' h h'
  exact ⟨m, m', h, h'⟩

end GC
