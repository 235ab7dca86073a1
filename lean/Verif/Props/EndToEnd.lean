/-
Properties C84-C85: query commands after a session of commands; how shortest paths react to changes of the graph.
-/
import Verif.Props.Main
import Verif.Props.Seeds
import Verif.Props.History
import Verif.Props.CycleReport
namespace GC
open Main Text Store Args DirectedGraph TopoSort

/-! ### C84: queries answer about the graph of the history -/

theorem shortPathReport_same {g g' : DirectedGraph} (hs : SameGraph g g') {s e : VertexId} {out : Text} (h : ShortPathReport g s e out) :
    ShortPathReport g' s e out := by
  cases h with
  | path h1 h2 h3 h4 h5 h6 => exact .path (by rwa [← hs.walk]) (by rwa [← hs.walk]) h3 h4 h5 h6
  | unreachable h1 h2 h3 => exact .unreachable (by rwa [← hs.reach]) h2 h3

theorem cspSolution_same {g g' : DirectedGraph} (hs : SameGraph g g') {s e : VertexId} {a : CspArgs} {l : List VertexId} :
    CspSolution g s e a l ↔ CspSolution g' s e a l := by
  unfold CspSolution
  rw [hs.walk]

theorem cspReport_same {g g' : DirectedGraph} (hs : SameGraph g g') {s e : VertexId} {a : CspArgs} {out : Text} (h : CspReport g s e a out) :
    CspReport g' s e a out := by
  cases h with
  | path h1 h2 h3 h4 h5 h6 h7 => exact .path (by rwa [← hs.walk]) h2 (fun l' hl' => h3 l' ((cspSolution_same hs).2 hl')) h4 h5 h6 h7
  | unreachable h1 h2 h3 => exact .unreachable (fun l hl => h1 l ((cspSolution_same hs).2 hl)) h2 h3

/-- The graph loaded after a session. -/
theorem session_loads {nd : Char → Bool} {root : FPath} {cmds : List Cmd} (hp : ∀ cmd ∈ cmds, cmd.Proper) {fs : FS} (h : Fresh root fs)
    {G : SetGraph} {es : List Exit} (hG : Store.History cmds none (some G) es) :
    ∃ g, loadGraph nd root (session nd root cmds fs).1 = .done (.ok g) ∧ Built g ∧ g.toSet = G := by
  obtain ⟨S, h1, h2, _⟩ := C75_session_from_fresh nd root cmds hp fs h
  obtain ⟨rfl, _⟩ := C75_history_unique _ _ _ _ _ _ h1 hG
  obtain ⟨g, h3, h4⟩ := h2
  exact ⟨g, h3, (loadGraph_built h3).1, h4⟩

/-- The vertices of `G` are fewer than `n`. -/
def SetGraph.Smaller (G : SetGraph) (n : Nat) : Prop := ∀ l : List VertexId, l.Nodup → (∀ v ∈ l, G.V v) → l.length < n

theorem vertexCount_smaller {g : DirectedGraph} (h : Built g) {n : Nat} (hn : g.toSet.Smaller n) : g.vertexCount < n := by
  have := hn g.vertices h.wf.nodup_vertices fun v hv => mem_vertices.1 hv
  simpa [vertices, HMap.keys, vertexCount] using this

/-- C84: after any session of commands that began in a directory without graph, gc-short-path prints a shortest path of the graph `G` that
the set-theoretic history gives, or that there is none (`g` is any graph with the vertices and edges of `G`). -/
theorem C84_short_path (H : ScoredHeap) (nd : Char → Bool) (order : DirectedGraph → DirectedGraph) (ho : IsOrder order) (root : FPath)
    (cmds : List Cmd) (hp : ∀ cmd ∈ cmds, cmd.Proper) (fs : FS) (h : Fresh root fs) (G : SetGraph) (es : List Exit)
    (hG : Store.History cmds none (some G) es) (hsize : G.Smaller (2 ^ 63)) (start end_ : Text) (s e : VertexId) (hs : ArgId start s)
    (he : ArgId end_ e) :
    ∃ out, Returns (Main.gcShortPath H nd order root start end_ (session nd root cmds fs).1) out ∧
      ∀ g, Built g → g.toSet = G → ShortPathReport g s e out := by
  obtain ⟨g, h1, h2, rfl⟩ := session_loads (nd := nd) hp h hG
  obtain ⟨out, h3, h4⟩ := C72_short_path_report H nd order ho root _ g h1 (vertexCount_smaller h2 hsize) start end_ s e hs he
  exact ⟨out, h3, fun g' _ hg' => shortPathReport_same (sameGraph_iff.2 hg'.symm) h4⟩

/-- C84: after any session, if the options bound the walks, gc-csp prints a shortest walk of `G` that meets the options, or that there is
none (without the option max-score, see C73). -/
theorem C84_csp (H : ScoredHeap) (nd : Char → Bool) (order : DirectedGraph → DirectedGraph) (ho : IsOrder order) (root : FPath)
    (cmds : List Cmd) (hp : ∀ cmd ∈ cmds, cmd.Proper) (fs : FS) (h : Fresh root fs) (G : SetGraph) (es : List Exit)
    (hG : Store.History cmds none (some G) es) (hsize : G.Smaller (2 ^ 63 - 1)) (start end_ : Text) (s e : VertexId) (hs : ArgId start s)
    (he : ArgId end_ e) (a : CspArgs) (hmax : a.maxScore = none) (hbound : BoundedOptions a) :
    ∃ report, Returns (Main.gcCsp H nd order root start end_ a (session nd root cmds fs).1) (constraintsText (cspConstraints a) ++ report) ∧
      ∀ g, Built g → g.toSet = G → CspReport g s e a report := by
  obtain ⟨g, h1, h2, rfl⟩ := session_loads (nd := nd) hp h hG
  obtain ⟨out, h3, h4⟩ := C73_bounded_ends_partial H nd order ho root _ g h1 (vertexCount_smaller h2 hsize) start end_ s e hs he a hmax hbound
  exact ⟨out, h3, fun g' _ hg' => cspReport_same (sameGraph_iff.2 hg'.symm) h4⟩

/-- C84: after any session, if the graph of the history has no cycle, gc-topo-sort prints a topological order of it. -/
theorem C84_topo_sort (nd : Char → Bool) (order : DirectedGraph → DirectedGraph) (ho : IsOrder order) (root : FPath)
    (cmds : List Cmd) (hp : ∀ cmd ∈ cmds, cmd.Proper) (fs : FS) (h : Fresh root fs) (G : SetGraph) (es : List Exit)
    (hG : Store.History cmds none (some G) es) (ha : ∀ v, ¬ Relation.TransGen (fun a b => G.E ⟨a, b⟩) v v) :
    ∃ l ids, Returns (gcTopoSort nd order root (session nd root cmds fs).1) ("Topological order: ".toList ++ ids ++ ['\n']) ∧
      PrintedIds ' ' l ids ∧ l.Nodup ∧ (∀ v, v ∈ l ↔ G.V v) ∧ ∀ e, G.E e → Before l e.src e.dst := by
  obtain ⟨g, h1, h2, rfl⟩ := session_loads (nd := nd) hp h hG
  obtain ⟨l, ids, h3, h4, h5⟩ := C71_prints_order nd order ho root _ g h1 ha
  exact ⟨l, ids, h3, h5, h4.1, h4.2.1, fun e he => h4.2.2 _ _ he⟩

/-- C84: after any session, `gc-cycle --hamiltonian` prints a cycle through all vertices of `G`, or `N/A` if there is none. -/
theorem C84_hamiltonian_cycle (nd : Char → Bool) (order : DirectedGraph → DirectedGraph) (ho : IsOrder order) (root : FPath)
    (cmds : List Cmd) (hp : ∀ cmd ∈ cmds, cmd.Proper) (fs : FS) (h : Fresh root fs) (G : SetGraph) (es : List Exit)
    (hG : Store.History cmds none (some G) es) (a : CycleArgs) :
    ∃ t, Returns (gcCycle nd order root { hamiltonian := true } a (session nd root cmds fs).1) ["hamiltonian: ".toList ++ t] ∧
      ∀ g, Built g → g.toSet = G →
        (t = "N/A".toList ∧ ∀ l, ¬ HamiltonianCycle g l) ∨ ∃ c, t = GcCycle.formatCycle c ∧ HamiltonianCycle g c.vertices := by
  obtain ⟨g, h1, h2, rfl⟩ := session_loads (nd := nd) hp h hG
  obtain ⟨t, h3, h4⟩ := C74_hamiltonian nd order ho root _ g h1 a
  refine ⟨t, h3, fun g' _ hg' => ?_⟩
  rw [(sameGraph_iff.2 hg').hamiltonianCycle]
  exact h4

/-- C84: after any session whose graph has a cycle but no self-loop, gc-topo-sort says so. -/
theorem C84_topo_sort_cyclic (nd : Char → Bool) (order : DirectedGraph → DirectedGraph) (ho : IsOrder order) (root : FPath)
    (cmds : List Cmd) (hp : ∀ cmd ∈ cmds, cmd.Proper) (fs : FS) (h : Fresh root fs) (G : SetGraph) (es : List Exit)
    (hG : Store.History cmds none (some G) es) (v : VertexId) (hv : Relation.TransGen (fun a b => G.E ⟨a, b⟩) v v)
    (hl : ∀ v, ¬ G.E ⟨v, v⟩) : Returns (gcTopoSort nd order root (session nd root cmds fs).1) "Graph is not a DAG.\n".toList := by
  obtain ⟨g, h1, h2, rfl⟩ := session_loads (nd := nd) hp h hG
  exact (C71_not_a_dag_partial nd order ho root _ g h1 hl).2 fun ha => ha v hv

theorem topoReport_same {g g' : DirectedGraph} (hs : SameGraph g g') {out : Text} (h : TopoReport g out) : TopoReport g' out := by
  have ha := hs.adj
  have hac : Acyclic g ↔ Acyclic g' := by unfold Acyclic; rw [ha]
  have hl : ∀ u, OnlyDeadEndLoop g u ↔ OnlyDeadEndLoop g' u := by intro u; unfold OnlyDeadEndLoop; rw [ha]
  cases h with
  | order h1 h2 h3 => exact .order (hac.1 h1) ⟨h2.1, fun v => by rw [← hs.1 v]; exact h2.2.1 v, by rw [← ha]; exact h2.2.2⟩ h3
  | loop h1 h2 h3 h4 h5 => exact .loop ((hl _).1 h1) h2 (fun v => by rw [← hs.1 v]; exact h3 v) (by rw [← ha]; exact h4) h5
  | cyclic h1 h2 => exact .cyclic (fun h => h1 (hac.2 h)) fun u hu => h2 u ((hl u).2 hu)

/-- C84: after any session that leaves a graph `G`, gc-topo-sort prints what `TopoReport` says about it. -/
theorem C84_topo_sort_exact (nd : Char → Bool) (order : DirectedGraph → DirectedGraph) (ho : IsOrder order) (root : FPath)
    (cmds : List Cmd) (hp : ∀ cmd ∈ cmds, cmd.Proper) (fs : FS) (h : Fresh root fs) (G : SetGraph) (es : List Exit)
    (hG : Store.History cmds none (some G) es) :
    ∃ out, Returns (gcTopoSort nd order root (session nd root cmds fs).1) out ∧ ∀ g, Built g → g.toSet = G → TopoReport g out := by
  obtain ⟨g, h1, h2, rfl⟩ := session_loads (nd := nd) hp h hG
  obtain ⟨out, h3, h4⟩ := C71_exact nd order ho root _ g h1
  exact ⟨out, h3, fun g' _ hg' => topoReport_same (sameGraph_iff.2 hg'.symm) h4⟩

theorem cspAnswer_same {g g' : DirectedGraph} (hs : SameGraph g g') {s e : VertexId} {a : CspArgs} {out : Text} (h : CspAnswer g s e a out) :
    CspAnswer g' s e a out := by
  have hsel : ∀ l, CspSelects g s e a l ↔ CspSelects g' s e a l := by
    intro l
    unfold CspSelects
    rw [hs.walk]
  cases h with
  | path h1 h2 h3 h4 h5 h6 h7 => exact .path (by rwa [← hs.walk]) h2 (fun l' hl' => h3 l' ((hsel l').2 hl')) h4 h5 h6 h7
  | unreachable h1 h2 h3 => exact .unreachable (fun l hl => h1 l ((hsel l).2 hl)) h2 h3

/-- C84: after any session that leaves a graph `G`, whatever the options: gc-csp ends if the options select some walk of `G`, and if it ends, it
prints a shortest one of these or that there is none (with max-score taken as it is implemented, see C73). -/
theorem C84_csp_exact (H : ScoredHeap) (nd : Char → Bool) (order : DirectedGraph → DirectedGraph) (ho : IsOrder order) (root : FPath)
    (cmds : List Cmd) (hp : ∀ cmd ∈ cmds, cmd.Proper) (fs : FS) (h : Fresh root fs) (G : SetGraph) (es : List Exit)
    (hG : Store.History cmds none (some G) es) (start end_ : Text) (s e : VertexId) (hs : ArgId start s)
    (he : ArgId end_ e) (a : CspArgs) (g : DirectedGraph) (hgG : g.toSet = G) :
    (∀ l, CspSelects g s e a l → ∃ out, Returns (Main.gcCsp H nd order root start end_ a (session nd root cmds fs).1) out) ∧
    ∀ out, Returns (Main.gcCsp H nd order root start end_ a (session nd root cmds fs).1) out →
      ∃ report, out = constraintsText (cspConstraints a) ++ report ∧ CspAnswer g s e a report := by
  obtain ⟨g', h1, h2, rfl⟩ := session_loads (nd := nd) hp h hG
  have hsame : SameGraph g g' := sameGraph_iff.2 hgG
  constructor
  · intro l hl
    obtain ⟨report, h3, _⟩ := C73_finds H nd order ho root _ g' h1 start end_ s e hs he a l (by
      unfold CspSelects at hl ⊢
      rwa [← hsame.walk])
    exact ⟨_, h3⟩
  · intro out hout
    obtain ⟨report, h3, h4⟩ := C73_exact H nd order ho root _ g' h1 start end_ s e hs he a out hout
    exact ⟨report, h3, cspAnswer_same hsame.symm h4⟩

theorem found_same {g g' : DirectedGraph} (hs : SameGraph g g') : Found g = Found g' := by
  funext s c
  unfold Found IsRoot
  rw [hs.isCycle, hs.reach, hs.adj]
  simp only [hs.1]

theorem selection_same {g g' : DirectedGraph} (hs : SameGraph g g') : Selection g = Selection g' := by
  funext s a sel
  unfold Selection
  rw [found_same hs]

theorem cycleReport_same {g g' : DirectedGraph} (hs : SameGraph g g') {s : VertexId} {a : CycleArgs} {act : GcCycle.Actions} {lines : List Text}
    (h : CycleReport g s a act lines) : CycleReport g' s a act lines := by
  have hf := found_same hs
  have hsel := selection_same hs
  have hham := hs.hamiltonianCycle
  cases h with
  | girth h1 h2 h3 => exact .girth (hf ▸ h1) (fun d hd => h2 d (hf ▸ hd)) h3
  | girth_none h1 => exact .girth_none fun c hc => h1 c (hf ▸ hc)
  | hamiltonian h1 h2 => exact .hamiltonian (hham ▸ h1) h2
  | hamiltonian_none h1 => exact .hamiltonian_none fun c hc => h1 c (hham ▸ hc)
  | count h1 h2 => exact .count (hsel ▸ h1) h2
  | shortest h1 h2 h3 h4 => exact .shortest (hsel ▸ h1) h2 h3 h4
  | shortest_none h1 => exact .shortest_none (hsel ▸ h1)
  | longest h1 h2 h3 h4 => exact .longest (hsel ▸ h1) h2 h3 h4
  | longest_none h1 => exact .longest_none (hsel ▸ h1)
  | head h1 h2 => exact .head (hsel ▸ h1) h2
  | takeN h1 h2 h3 => exact .takeN h1 (hsel ▸ h2) h3
  | takeN_bad h1 => exact .takeN_bad h1
  | all h1 h2 => exact .all (hsel ▸ h1) h2

/-- C84: after any session that leaves a graph `G`, every action of gc-cycle with any options prints what `CycleReport` says about `G`. -/
theorem C84_cycle (nd : Char → Bool) (order : DirectedGraph → DirectedGraph) (ho : IsOrder order) (root : FPath)
    (cmds : List Cmd) (hp : ∀ cmd ∈ cmds, cmd.Proper) (fs : FS) (h : Fresh root fs) (G : SetGraph) (es : List Exit)
    (hG : Store.History cmds none (some G) es) (act : GcCycle.Actions) (hact : OneAction act) (a : CycleArgs) :
    ∃ lines s, Returns (gcCycle nd order root act a (session nd root cmds fs).1) lines ∧ (∀ v, G.V v → G.V s) ∧
      ∀ g, Built g → g.toSet = G → CycleReport g s a act lines := by
  obtain ⟨g, h1, h2, rfl⟩ := session_loads (nd := nd) hp h hG
  obtain ⟨lines, s, h3, h4, h5⟩ := C74_report nd order ho root _ g h1 act hact a
  exact ⟨lines, s, h3, h4, fun g' _ hg' => cycleReport_same (sameGraph_iff.2 hg'.symm) h5⟩

/-- C84: after any session, gc-desc reports the number of vertices of `G` and its smallest and largest id, and the number of edges if there is
no self-loop (see C67). -/
theorem C84_desc (nd : Char → Bool) (root : FPath)
    (cmds : List Cmd) (hp : ∀ cmd ∈ cmds, cmd.Proper) (fs : FS) (h : Fresh root fs) (G : SetGraph) (es : List Exit)
    (hG : Store.History cmds none (some G) es) :
    ∃ d, gcDesc nd root (session nd root cmds fs).1 = .done d ∧
      (∀ l : List VertexId, l.Nodup → (∀ v, v ∈ l ↔ G.V v) → d.vertices = l.length) ∧
      ((∀ v, ¬ G.E ⟨v, v⟩) → ∀ l : List Edge, l.Nodup → (∀ e, e ∈ l ↔ G.E e) → d.edges = l.length) ∧
      (∀ m, d.minId = some m ↔ G.V ⟨m⟩ ∧ ∀ v, G.V v → m ≤ v.id) ∧ (∀ m, d.maxId = some m ↔ G.V ⟨m⟩ ∧ ∀ v, G.V v → v.id ≤ m) := by
  obtain ⟨g, h1, h2, rfl⟩ := session_loads (nd := nd) hp h hG
  obtain ⟨d, k1, k2, k3, k4, k5, k6, k7⟩ := C67_desc_partial nd root _ g h1
  refine ⟨d, k1, ?_, ?_, ?_, ?_⟩
  · intro l hn hl
    rw [k2]
    exact ((List.perm_ext_iff_of_nodup h2.wf.nodup_vertices hn).2 fun v => by rw [mem_vertices, hl]; rfl).length_eq
  · intro hlf l hn hl
    rw [k3 hlf]
    exact ((List.perm_ext_iff_of_nodup h2.wf.nodup_edges hn).2 fun e => by rw [h2.wf.mem_edges, hl]; rfl).length_eq
  · intro m
    refine ⟨k6 m, fun ⟨a, b⟩ => ?_⟩
    cases hd : d.minId with
    | none => have := k4.1 hd ⟨m⟩; rw [show g.containsVertex ⟨m⟩ = true from a] at this; cases this
    | some m' =>
      obtain ⟨a', b'⟩ := k6 m' hd
      rw [UInt64.le_antisymm (b' _ a) (b _ a')]
  · intro m
    refine ⟨k7 m, fun ⟨a, b⟩ => ?_⟩
    cases hd : d.maxId with
    | none => have := k5.1 hd ⟨m⟩; rw [show g.containsVertex ⟨m⟩ = true from a] at this; cases this
    | some m' =>
      obtain ⟨a', b'⟩ := k7 m' hd
      exact congrArg some (UInt64.le_antisymm (b _ a') (b' _ a))

/-- C84: after a session that leaves no graph behind, every query panics. -/
theorem C84_no_graph (H : ScoredHeap) (nd : Char → Bool) (order : DirectedGraph → DirectedGraph) (root : FPath)
    (cmds : List Cmd) (hp : ∀ cmd ∈ cmds, cmd.Proper) (fs : FS) (h : Fresh root fs) (es : List Exit)
    (hG : Store.History cmds none none es) (start end_ : Text) (a : CspArgs) (act : GcCycle.Actions) (b : CycleArgs) :
    Panics (Main.gcShortPath H nd order root start end_ (session nd root cmds fs).1) ∧
    Panics (Main.gcCsp H nd order root start end_ a (session nd root cmds fs).1) ∧
    Panics (gcTopoSort nd order root (session nd root cmds fs).1) ∧
    Panics (gcCycle nd order root act b (session nd root cmds fs).1) ∧
    ¬ ∃ d, gcDesc nd root (session nd root cmds fs).1 = .done d := by
  obtain ⟨S, h1, h2, _⟩ := C75_session_from_fresh nd root cmds hp fs h
  obtain ⟨rfl, _⟩ := C75_history_unique _ _ _ _ _ _ h1 hG
  have hno : ∀ g, loadGraph nd root (session nd root cmds fs).1 ≠ .done (.ok g) := by
    intro g hg
    have h3 : loadGraph nd root (session nd root cmds fs).1 = _ := h2
    rw [h3] at hg
    cases hg
  refine ⟨C72_rejects H nd order root _ start end_ (.inr (.inr hno)), C73_rejects H nd order root _ start end_ a (.inr (.inr hno)),
    C71_nothing_stored nd order root _ hno, (loadedGraph_fails hno).bind_left, ?_⟩
  rw [C67_needs_graph]
  rintro ⟨g, hg⟩
  exact hno g hg

/-- A session that stores the path 1→2→3, after a command that failed. -/
def pathSession : List Cmd := [.add { vertex := some [['x']] }, .init, .add { chain := some [['1'], ['2'], ['3']] }]

theorem pathSession_proper : ∀ cmd ∈ pathSession, cmd.Proper := by
  intro cmd hc
  simp only [pathSession, List.mem_cons, List.not_mem_nil, or_false] at hc
  rcases hc with rfl | rfl | rfl <;> trivial

theorem pathSession_history : ∃ G es, Store.History pathSession none (some G) es ∧
    G = (graphOf [.AddEdge 1 2, .AddEdge 2 3]).toSet := by
  obtain ⟨S, h1, h2, _⟩ := C75_session_from_fresh (fun _ => false) [['d']] pathSession pathSession_proper emptyFS emptyFS_fresh
  have h3 : loadGraph (fun _ => false) [['d']] (session (fun _ => false) [['d']] pathSession emptyFS).1 =
      .done (.ok (graphOf [.AddEdge 1 2, .AddEdge 2 3])) := by decide +kernel
  cases S with
  | some G =>
    obtain ⟨g, h4, h5⟩ := h2
    rw [h3] at h4
    cases h4
    exact ⟨G, _, h1, h5.symm⟩
  | none =>
    have h4 : loadGraph (fun _ => false) [['d']] (session (fun _ => false) [['d']] pathSession emptyFS).1 = .done (.error (.io .notFound)) := h2
    rw [h3] at h4
    cases h4

/-- The session `pathSession` meets the hypotheses of all properties C84: `C84_short_path`, `C84_csp`, `C84_csp_exact`, `C84_topo_sort`,
`C84_topo_sort_exact`, `C84_hamiltonian_cycle`, `C84_cycle` and `C84_desc`. -/
example (nd : Char → Bool) : let fs := (session nd [['d']] pathSession emptyFS).1
    let g := graphOf [.AddEdge 1 2, .AddEdge 2 3]
    (∃ out, Returns (Main.gcShortPath exHeap nd id [['d']] ['1'] ['3'] fs) out ∧ ShortPathReport g 1 3 out) ∧
    (∃ report, Returns (Main.gcCsp exHeap nd id [['d']] ['1'] ['3'] { noCycle := true } fs)
      (constraintsText (cspConstraints { noCycle := true }) ++ report) ∧ CspReport g 1 3 { noCycle := true } report) ∧
    (∀ out, Returns (Main.gcCsp exHeap nd id [['d']] ['1'] ['3'] {} fs) out → ∃ report,
      out = constraintsText (cspConstraints {}) ++ report ∧ CspAnswer g 1 3 {} report) ∧
    (∃ l ids, Returns (gcTopoSort nd id [['d']] fs) ("Topological order: ".toList ++ ids ++ ['\n']) ∧ PrintedIds ' ' l ids ∧ l.Nodup) ∧
    (∃ out, Returns (gcTopoSort nd id [['d']] fs) out ∧ TopoReport g out) ∧
    (∃ t, Returns (gcCycle nd id [['d']] { hamiltonian := true } {} fs) ["hamiltonian: ".toList ++ t]) ∧
    (∃ lines s, Returns (gcCycle nd id [['d']] { all := true } {} fs) lines ∧ CycleReport g s {} { all := true } lines) ∧
    ∃ d, gcDesc nd [['d']] fs = .done d ∧ d.vertices = 3 := by
  intro fs g
  obtain ⟨G, es, hG, rfl⟩ := pathSession_history
  have hb : Built g := graphOf_built _
  have h1 : ArgId ['1'] 1 := argId_of (by decide)
  have h3 : ArgId ['3'] 3 := argId_of (by decide)
  have hv : ∀ v, g.toSet.V v → v ∈ g.vertices := fun v hv => mem_vertices.2 hv
  have hsm : ∀ n, 3 < n → g.toSet.Smaller n := by
    intro n hn l hl hm
    have := (List.subperm_of_subset hl (fun v hm' => hv v (hm v hm'))).length_le
    have h4 : g.vertices.length = 3 := by decide
    omega
  have ha : Acyclic g := acyclic_graphOf (fun v => v.id.toNat) (by decide)
  obtain ⟨o1, a1, a2⟩ := C84_short_path exHeap nd id isOrder_id [['d']] pathSession pathSession_proper emptyFS emptyFS_fresh _ es hG
    (hsm _ (by decide)) ['1'] ['3'] 1 3 h1 h3
  obtain ⟨o2, b1, b2⟩ := C84_csp exHeap nd id isOrder_id [['d']] pathSession pathSession_proper emptyFS emptyFS_fresh _ es hG
    (hsm _ (by decide)) ['1'] ['3'] 1 3 h1 h3 { noCycle := true } rfl (.inl rfl)
  have c1 := C84_csp_exact exHeap nd id isOrder_id [['d']] pathSession pathSession_proper emptyFS emptyFS_fresh _ es hG
    ['1'] ['3'] 1 3 h1 h3 {} g rfl
  obtain ⟨l, ids, d1, d2, d3, _⟩ := C84_topo_sort nd id isOrder_id [['d']] pathSession pathSession_proper emptyFS emptyFS_fresh _ es hG ha
  obtain ⟨o3, e1, e2⟩ := C84_topo_sort_exact nd id isOrder_id [['d']] pathSession pathSession_proper emptyFS emptyFS_fresh _ es hG
  obtain ⟨t, f1, _⟩ := C84_hamiltonian_cycle nd id isOrder_id [['d']] pathSession pathSession_proper emptyFS emptyFS_fresh _ es hG {}
  obtain ⟨ls, s, k1, _, k3⟩ := C84_cycle nd id isOrder_id [['d']] pathSession pathSession_proper emptyFS emptyFS_fresh _ es hG
    { all := true } (by simp [OneAction]) {}
  obtain ⟨d, m1, m2, _⟩ := C84_desc nd [['d']] pathSession pathSession_proper emptyFS emptyFS_fresh _ es hG
  exact ⟨⟨o1, a1, a2 g hb rfl⟩, ⟨o2, b1, b2 g hb rfl⟩, c1.2, ⟨l, ids, d1, d2, d3⟩, ⟨o3, e1, e2 g hb rfl⟩, ⟨t, f1⟩, ⟨ls, s, k1, k3 g hb rfl⟩,
    ⟨d, m1, m2 g.vertices hb.wf.nodup_vertices fun v => mem_vertices⟩⟩

/-- A session that closes the cycle 1, 2, 3, with `C84_topo_sort_cyclic`; and one that ends without a graph, with `C84_no_graph`. -/
example (nd : Char → Bool) :
    Returns (gcTopoSort nd id [['d']] (session nd [['d']] [.init, .add { cycle := some [['1'], ['2'], ['3']] }] emptyFS).1)
      "Graph is not a DAG.\n".toList ∧
    Panics (gcTopoSort nd id [['d']] (session nd [['d']] [.init, .clean true []] emptyFS).1) := by
  constructor
  · have hp : ∀ cmd ∈ [Cmd.init, .add { cycle := some [['1'], ['2'], ['3']] }], cmd.Proper := by
      intro cmd hc
      simp only [List.mem_cons, List.not_mem_nil, or_false] at hc
      rcases hc with rfl | rfl <;> trivial
    obtain ⟨S, h1, h2, _⟩ := C75_session_from_fresh (fun _ => false) [['d']] _ hp emptyFS emptyFS_fresh
    have h3 : loadGraph (fun _ => false) [['d']] (session (fun _ => false) [['d']] [.init, .add { cycle := some [['1'], ['2'], ['3']] }] emptyFS).1 =
        .done (.ok (graphOf [.AddEdge 1 2, .AddEdge 2 3, .AddEdge 3 1])) := by decide +kernel
    cases S with
    | none => cases h3.symm.trans h2
    | some G =>
      obtain ⟨g, h4, h5⟩ := h2
      rw [h3] at h4
      cases h4
      subst h5
      refine C84_topo_sort_cyclic nd id isOrder_id [['d']] _ hp emptyFS emptyFS_fresh _ _ h1 1 ?_ ?_
      · exact .tail (b := 3) (.tail (b := 2) (.single (show DirectedGraph.containsEdge _ _ = true by decide))
          (show DirectedGraph.containsEdge _ _ = true by decide)) (show DirectedGraph.containsEdge _ _ = true by decide)
      · exact loopFree_graphOf (by decide)
  · have hp : ∀ cmd ∈ [Cmd.init, .clean true []], cmd.Proper := by
      intro cmd hc
      simp only [List.mem_cons, List.not_mem_nil, or_false] at hc
      rcases hc with rfl | rfl <;> trivial
    obtain ⟨S, h1, h2, _⟩ := C75_session_from_fresh (fun _ => false) [['d']] _ hp emptyFS emptyFS_fresh
    have h3 : loadGraph (fun _ => false) [['d']] (session (fun _ => false) [['d']] [.init, .clean true []] emptyFS).1 =
        .done (.error (.io .notFound)) := by decide +kernel
    cases S with
    | some G =>
      obtain ⟨g, h4, _⟩ := h2
      rw [h3] at h4
      cases h4
    | none => exact (C84_no_graph exHeap nd id [['d']] _ hp emptyFS emptyFS_fresh _ h1 ['1'] ['1'] {} {} {}).2.2.1

/-- Its history gives a graph, and gc-short-path prints a path of it. -/
example : Fresh [['d']] emptyFS ∧ (∃ G es, Store.History pathSession none (some G) es) ∧
    Main.gcShortPath exHeap (fun _ => false) id [['d']] ['1'] ['3'] (session (fun _ => false) [['d']] pathSession emptyFS).1 20 =
      .done "Shortest path from vertex 1 to vertex 3 with total cost of 2\n1\n2\n3\n".toList := by
  refine ⟨emptyFS_fresh, ?_, by decide +kernel⟩
  obtain ⟨S, h1, h2, _⟩ := C75_session_from_fresh (fun _ => false) [['d']] pathSession pathSession_proper emptyFS emptyFS_fresh
  cases S with
  | some G => exact ⟨G, _, h1⟩
  | none =>
    exfalso
    have h3 : loadGraph (fun _ => false) [['d']] (session (fun _ => false) [['d']] pathSession emptyFS).1 = .done (.error (.io .notFound)) := h2
    have h4 : (match loadGraph (fun _ => false) [['d']] (session (fun _ => false) [['d']] pathSession emptyFS).1 with
      | .done (.ok _) => true
      | _ => false) = true := by decide +kernel
    rw [h3] at h4
    cases h4
example : IsOrder id := fun _ => List.Perm.refl _
/-- After closing the path with a self-loop at 3, gc-topo-sort still prints an order, without 3, and gc-cycle finds the loop; with
`exclude-all 3` it selects nothing. -/
example : let fs := (session (fun _ => false) [['d']] (pathSession ++ [.add { edge := some [['3'], ['3']] }]) emptyFS).1
    Main.gcTopoSort (fun _ => false) id [['d']] fs 20 = .done "Topological order: 1 2 \n".toList ∧
    Main.gcCycle (fun _ => false) id [['d']] { all := true } {} fs 20 = .done ["[3]".toList] ∧
    Main.gcCycle (fun _ => false) id [['d']] { count := true } { excludeAll := some [['3']] } fs 20 = .done ["count: 0".toList] ∧
    OneAction { all := true } := by
  refine ⟨by decide +kernel, by decide +kernel, by decide +kernel, ?_⟩
  simp [OneAction]

/-! ### C85: shortest paths when the graph changes -/

/-- Cost of the path that gc-short-path finds, or that it finds none. -/
def Cost (H : ScoredHeap) (g : DirectedGraph) (s t : VertexId) (c : Option Int) : Prop :=
  ∃ r, Returns (AStar.gcShortPath H g s t) r ∧ r.map ScoredPath.score = c

theorem cost_spec {H : ScoredHeap} {g : DirectedGraph} (h : Built g) (hsize : g.vertexCount < 2 ^ 63) {s t : VertexId} {c : Option Int}
    (hc : Cost H g s t c) : (c = none ↔ ¬ Reach g s t) ∧
      ∀ k, c = some k → (∃ l, WalkFromTo g s t l ∧ k = (l.length : Int) - 1) ∧ ∀ l, WalkFromTo g s t l → k ≤ (l.length : Int) - 1 := by
  obtain ⟨r, hr, rfl⟩ := hc
  obtain ⟨r', h1, h2, h3⟩ := C33_short_path_optimal H g h hsize s t
  cases h1.unique hr
  refine ⟨by rw [← h2, Option.map_eq_none_iff], ?_⟩
  intro k hk
  cases r with
  | none => cases hk
  | some sp =>
    cases hk
    obtain ⟨a1, _, a3, a4⟩ := h3 sp rfl
    refine ⟨⟨_, a1, a3⟩, fun l hl => ?_⟩
    have := a4 l hl
    omega

theorem cost_mono {H H' : ScoredHeap} {g g' : DirectedGraph} (h : Built g) (h' : Built g') (hsize : g.vertexCount < 2 ^ 63)
    (hsize' : g'.vertexCount < 2 ^ 63) (hsub : ∀ u v, Adj g u v → Adj g' u v) {s t : VertexId} {k : Int}
    {c : Option Int} (hc : Cost H g s t (some k)) (hc' : Cost H' g' s t c) : ∃ k', c = some k' ∧ k' ≤ k := by
  obtain ⟨a1, a2⟩ := cost_spec h hsize hc
  obtain ⟨b1, b2⟩ := cost_spec h' hsize' hc'
  obtain ⟨⟨l, hl, rfl⟩, _⟩ := a2 k rfl
  have hl' : WalkFromTo g' s t l := ⟨hl.1.imp hsub, hl.2⟩
  cases c with
  | none => exact absurd hl'.reach (b1.1 rfl)
  | some k' => exact ⟨k', rfl, (b2 k' rfl).2 l hl'⟩

theorem cost_exists {H : ScoredHeap} {g : DirectedGraph} (h : Built g) (hsize : g.vertexCount < 2 ^ 63) {s t : VertexId}
    {l : List VertexId} (hl : WalkFromTo g s t l) : ∃ k, Cost H g s t (some k) ∧ k ≤ (l.length : Int) - 1 := by
  obtain ⟨r, h1, h2, _⟩ := C33_short_path_optimal H g h hsize s t
  have hc : Cost H g s t (r.map ScoredPath.score) := ⟨r, h1, rfl⟩
  cases r with
  | none => exact absurd hl.reach (h2.1 rfl)
  | some sp => exact ⟨sp.score, hc, ((cost_spec h hsize hc).2 _ rfl).2 l hl⟩

theorem vertexCount_le {g g' : DirectedGraph} (h : Built g) (hsub : ∀ v, g.containsVertex v = true → g'.containsVertex v = true) :
    g.vertexCount ≤ g'.vertexCount := by
  have := (h.wf.nodup_vertices.subperm fun v hv => mem_vertices.2 (hsub v (mem_vertices.1 hv))).length_le
  simpa [vertices, HMap.keys, vertexCount] using this

theorem adj_applyTo {g : DirectedGraph} (h : Built g) (c : GraphCommand) (u v : VertexId) :
    Adj (c.applyTo g) u v ↔ (g.toSet.step c).E ⟨u, v⟩ := by
  rw [← toSet_applyTo h.wf]
  rfl

theorem vertex_applyTo {g : DirectedGraph} (h : Built g) (c : GraphCommand) (v : VertexId) :
    (c.applyTo g).containsVertex v = true ↔ (g.toSet.step c).V v := by
  rw [← toSet_applyTo h.wf]
  rfl

theorem built_applyTo {g : DirectedGraph} (h : Built g) (c : GraphCommand) : Built (c.applyTo g) := by
  obtain ⟨cs, hcs⟩ := h
  exact ⟨_, hcs.apply c⟩

/-- C85: adding a vertex or an edge never makes a shortest path longer, and never makes a reachable vertex unreachable. -/
theorem C85_additions (H H' : ScoredHeap) (g : DirectedGraph) (h : Built g) (c : GraphCommand)
    (hc : (∃ v, c = .AddVertex v) ∨ ∃ a b, c = .AddEdge a b) (hsize : (c.applyTo g).vertexCount < 2 ^ 63) (s t : VertexId) (k : Int)
    (hk : Cost H g s t (some k)) (r : Option Int) (hr : Cost H' (c.applyTo g) s t r) : ∃ k', r = some k' ∧ k' ≤ k := by
  have h1 : ∀ u v, Adj g u v → Adj (c.applyTo g) u v := by
    intro u v huv
    rw [adj_applyTo h]
    rcases hc with ⟨x, rfl⟩ | ⟨a, b, rfl⟩
    · exact huv
    · exact .inl huv
  have h2 : ∀ v, g.containsVertex v = true → (c.applyTo g).containsVertex v = true := by
    intro v hv
    rw [vertex_applyTo h]
    rcases hc with ⟨x, rfl⟩ | ⟨a, b, rfl⟩
    · exact .inl hv
    · exact .inl hv
  exact cost_mono h (built_applyTo h c) (Nat.lt_of_le_of_lt (vertexCount_le h h2) hsize) hsize h1 hk hr

/-- C85: removing a vertex or an edge never makes a shortest path shorter, and never makes an unreachable vertex reachable. -/
theorem C85_removals (H H' : ScoredHeap) (g : DirectedGraph) (h : Built g) (c : GraphCommand)
    (hc : (∃ v, c = .RemoveVertex v) ∨ ∃ a b, c = .RemoveEdge a b) (hsize : g.vertexCount < 2 ^ 63) (s t : VertexId) (k : Int)
    (hk : Cost H' (c.applyTo g) s t (some k)) (r : Option Int) (hr : Cost H g s t r) : ∃ k', r = some k' ∧ k' ≤ k := by
  have h1 : ∀ u v, Adj (c.applyTo g) u v → Adj g u v := by
    intro u v huv
    rw [adj_applyTo h] at huv
    rcases hc with ⟨x, rfl⟩ | ⟨a, b, rfl⟩
    · exact huv.1
    · exact huv.1
  have h2 : ∀ v, (c.applyTo g).containsVertex v = true → g.containsVertex v = true := by
    intro v hv
    rw [vertex_applyTo h] at hv
    rcases hc with ⟨x, rfl⟩ | ⟨a, b, rfl⟩
    · exact hv.1
    · exact hv
  exact cost_mono (built_applyTo h c) h (Nat.lt_of_le_of_lt (vertexCount_le (built_applyTo h c) h2) hsize) hsize h1 hk hr

theorem walk_join {g : DirectedGraph} {s t u : VertexId} {l l' : List VertexId} (h : WalkFromTo g s t l) (h' : WalkFromTo g t u l') :
    ∃ m, WalkFromTo g s u m ∧ m.length + 1 = l.length + l'.length := by
  obtain ⟨a, rfl⟩ : ∃ a, l = a ++ [t] := by
    obtain ⟨_, _, h3⟩ := h
    exact List.getLast?_eq_some_iff.1 h3
  cases l' with
  | nil => exact absurd rfl h'.ne_nil
  | cons x b =>
    have : x = t := by simpa using h'.2.1
    subst this
    exact ⟨_, h.join h', by simp; omega⟩

/-- C85: the costs obey the triangle inequality, and are 0 exactly between a vertex and itself. -/
theorem C85_triangle (H : ScoredHeap) (g : DirectedGraph) (h : Built g) (hsize : g.vertexCount < 2 ^ 63) (s t u : VertexId) (a b : Int)
    (ha : Cost H g s t (some a)) (hb : Cost H g t u (some b)) (r : Option Int) (hr : Cost H g s u r) :
    ∃ c, r = some c ∧ c ≤ a + b ∧ 0 ≤ a ∧ (a = 0 ↔ s = t) := by
  obtain ⟨⟨l, hl, rfl⟩, ha2⟩ := (cost_spec h hsize ha).2 a rfl
  obtain ⟨⟨l', hl', rfl⟩, _⟩ := (cost_spec h hsize hb).2 b rfl
  obtain ⟨m, hm, hlen⟩ := walk_join hl hl'
  have hpos := List.length_pos_of_ne_nil hl.ne_nil
  obtain ⟨r1, r2⟩ := cost_spec h hsize hr
  cases r with
  | none => exact absurd hm.reach (r1.1 rfl)
  | some c =>
    have := (r2 c rfl).2 m hm
    refine ⟨c, rfl, by omega, by omega, ?_, ?_⟩
    · intro h0
      have h1 : l.length = 1 := by omega
      obtain ⟨x, rfl⟩ := List.length_eq_one_iff.1 h1
      have e1 : x = s := by simpa using hl.2.1
      have e2 : x = t := by simpa using hl.2.2
      rw [← e1, e2]
    · rintro rfl
      have := ha2 [s] (WalkFromTo.single s)
      simp at this
      omega

theorem chain_new_edge {R : VertexId → VertexId → Prop} {x y : VertexId} {l : List VertexId} (hn : l.Nodup)
    (h : l.IsChain fun u v => R u v ∨ (u = x ∧ v = y)) :
    l.IsChain R ∨ ∃ a b, l = a ++ x :: y :: b ∧ (a ++ [x]).IsChain R ∧ (y :: b).IsChain R := by
  induction l with
  | nil => exact .inl .nil
  | cons u l ih =>
    cases l with
    | nil => exact .inl (List.isChain_singleton _)
    | cons v l =>
      rw [List.isChain_cons_cons] at h
      have hn' := List.nodup_cons.1 hn
      rcases h.1 with huv | ⟨rfl, rfl⟩
      · rcases ih hn'.2 h.2 with h1 | ⟨a, b, h1, h2, h3⟩
        · exact .inl (List.isChain_cons_cons.2 ⟨huv, h1⟩)
        · refine .inr ⟨u :: a, b, by rw [h1]; rfl, ?_, h3⟩
          cases a with
          | nil =>
            cases h1
            exact List.isChain_cons_cons.2 ⟨huv, h2⟩
          | cons a0 a =>
            cases h1
            exact List.isChain_cons_cons.2 ⟨huv, h2⟩
      · refine .inr ⟨[], l, rfl, List.isChain_singleton _, ?_⟩
        refine List.IsChain.imp_of_mem_imp (fun a b ha _ hab => ?_) h.2
        rcases hab with hab | ⟨rfl, _⟩
        · exact hab
        · exact absurd ha hn'.1

/-- C85: after adding an edge, a shortest path is a shortest path of the old graph, or it consists of a shortest path to the new edge, the
new edge, and a shortest path from there, whichever is shorter. -/
theorem C85_new_edge (H H' : ScoredHeap) (g : DirectedGraph) (h : Built g) (e : Edge) (hsize : (g.addEdge e).2.vertexCount < 2 ^ 63)
    (s t : VertexId) (k : Int) (hk : Cost H' (g.addEdge e).2 s t (some k)) :
    (Cost H g s t (some k) ∨ ∃ a b, Cost H g s e.src (some a) ∧ Cost H g e.dst t (some b) ∧ k = a + 1 + b) ∧
    (∀ k', Cost H g s t (some k') → k ≤ k') ∧
    ∀ a b, Cost H g s e.src (some a) → Cost H g e.dst t (some b) → k ≤ a + 1 + b := by
  have hb := built_applyTo h (.AddEdge e.src e.dst)
  change Built (g.addEdge e).2 at hb
  have hadj : ∀ u v, Adj (g.addEdge e).2 u v ↔ Adj g u v ∨ (u = e.src ∧ v = e.dst) := by
    intro u v
    have := adj_applyTo h (.AddEdge e.src e.dst) u v
    refine this.trans ?_
    show (_ ∨ _) ↔ _
    rw [Edge.mk.injEq]
    exact Iff.rfl
  have hsz : g.vertexCount < 2 ^ 63 := by
    refine Nat.lt_of_le_of_lt (vertexCount_le h fun v hv => ?_) hsize
    exact (vertex_applyTo h (.AddEdge e.src e.dst) v).2 (.inl hv)
  have hlift : ∀ {a b l}, WalkFromTo g a b l → WalkFromTo (g.addEdge e).2 a b l :=
    fun hl => ⟨hl.1.imp fun u v huv => (hadj u v).2 (.inl huv), hl.2⟩
  have hold : ∀ k', Cost H g s t (some k') → k ≤ k' := by
    intro k' hk'
    obtain ⟨k2, e1, hle⟩ := cost_mono h hb hsz hsize (fun u v huv => (hadj u v).2 (.inl huv)) hk' hk
    cases e1
    exact hle
  have hvia : ∀ a b, Cost H g s e.src (some a) → Cost H g e.dst t (some b) → k ≤ a + 1 + b := by
    intro a b ha hb'
    obtain ⟨⟨l, hl, rfl⟩, _⟩ := (cost_spec h hsz ha).2 a rfl
    obtain ⟨⟨l', hl', rfl⟩, _⟩ := (cost_spec h hsz hb').2 b rfl
    have h1 : WalkFromTo (g.addEdge e).2 s e.dst (l ++ [e.dst]) := (hlift hl).snoc ((hadj _ _).2 (.inr ⟨rfl, rfl⟩))
    obtain ⟨m, hm, hlen⟩ := walk_join h1 (hlift hl')
    have := ((cost_spec hb hsize hk).2 k rfl).2 m hm
    simp only [List.length_append, List.length_singleton] at hlen
    omega
  refine ⟨?_, hold, hvia⟩
  obtain ⟨r, hr, hrk⟩ := hk
  obtain ⟨r', h1, _, h3⟩ := C33_short_path_optimal H' _ hb hsize s t
  cases h1.unique hr
  cases r with
  | none => cases hrk
  | some sp =>
    cases hrk
    obtain ⟨a1, a2, a3, _⟩ := h3 sp rfl
    rcases chain_new_edge (R := Adj g) (x := e.src) (y := e.dst) a2 (a1.1.imp fun u v huv => (hadj u v).1 huv) with hch | ⟨a, b, hab, ha, hb'⟩
    · left
      obtain ⟨k', hk', hle⟩ := cost_exists (H := H) h hsz (l := sp.path.vertices) ⟨hch, a1.2⟩
      have := hold k' hk'
      have e1 : k' = sp.score := by omega
      rwa [e1] at hk'
    · right
      have w1 : WalkFromTo g s e.src (a ++ [e.src]) := by
        refine ⟨ha, ?_, by simp⟩
        have := a1.2.1
        rw [hab] at this
        cases a <;> simpa using this
      have w2 : WalkFromTo g e.dst t (e.dst :: b) := by
        refine ⟨hb', rfl, ?_⟩
        have := a1.2.2
        rw [hab] at this
        simpa using this
      obtain ⟨x, hx, hxle⟩ := cost_exists (H := H) h hsz w1
      obtain ⟨y, hy, hyle⟩ := cost_exists (H := H) h hsz w2
      have h5 := hvia x y hx hy
      refine ⟨x, y, hx, hy, ?_⟩
      have hlen : sp.path.vertices.length = a.length + 2 + b.length := by rw [hab]; simp; omega
      simp only [List.length_append, List.length_cons, List.length_nil] at hxle hyle
      omega

theorem mono_gcShortPath (H : ScoredHeap) (g : DirectedGraph) (s t : VertexId) : Mono (AStar.gcShortPath H g s t) := by
  unfold AStar.gcShortPath AStar.shortestPath
  exact Mono.bind (Mono.lift _) fun _ => Mono.find (fun s => by
    unfold BestFirstIter.next
    split
    · exact Mono.ret _
    · exact Mono.lift _) _ _

/-- `C85_additions`, `C85_removals`, `C85_triangle` and `C85_new_edge` on the path 1, 2, 3, 4, with the shortcut 1 → 4. -/
example : let g := graphOf [.AddEdge 1 2, .AddEdge 2 3, .AddEdge 3 4]
    let g' := (GraphCommand.AddEdge 1 4).applyTo g
    (∀ r, Cost exHeap g' 1 4 r → ∃ k', r = some k' ∧ k' ≤ 3) ∧
    (∀ r, Cost exHeap g' 1 3 r → ∃ k', r = some k' ∧ k' ≤ 2) ∧
    (∀ r, Cost exHeap g 1 4 r → ∃ c, r = some c ∧ c ≤ 2 + 1) ∧
    (Cost exHeap g 1 4 (some 1) ∨ ∃ a b, Cost exHeap g 1 1 (some a) ∧ Cost exHeap g 4 4 (some b) ∧ (1 : Int) = a + 1 + b) := by
  intro g g'
  have hb : Built g := graphOf_built _
  have hb' : Built g' := graphOf_built [.AddEdge 1 2, .AddEdge 2 3, .AddEdge 3 4, .AddEdge 1 4]
  have c14 : Cost exHeap g 1 4 (some 3) :=
    ⟨some ⟨⟨[1, 2, 3, 4]⟩, 3⟩, (mono_gcShortPath _ _ _ _).returns (n := 20) (by decide +kernel), rfl⟩
  have c13 : Cost exHeap g 1 3 (some 2) :=
    ⟨some ⟨⟨[1, 2, 3]⟩, 2⟩, (mono_gcShortPath _ _ _ _).returns (n := 20) (by decide +kernel), rfl⟩
  have c34 : Cost exHeap g 3 4 (some 1) :=
    ⟨some ⟨⟨[3, 4]⟩, 1⟩, (mono_gcShortPath _ _ _ _).returns (n := 20) (by decide +kernel), rfl⟩
  have d14 : Cost exHeap g' 1 4 (some 1) :=
    ⟨some ⟨⟨[1, 4]⟩, 1⟩, (mono_gcShortPath _ _ _ _).returns (n := 20) (by decide +kernel), rfl⟩
  have d13 : Cost exHeap ((GraphCommand.RemoveEdge 1 4).applyTo g') 1 3 (some 2) :=
    ⟨some ⟨⟨[1, 2, 3]⟩, 2⟩, (mono_gcShortPath _ _ _ _).returns (n := 20) (by decide +kernel), rfl⟩
  refine ⟨fun r hr => C85_additions exHeap exHeap g hb _ (.inr ⟨1, 4, rfl⟩) (by decide) 1 4 3 c14 r hr,
    fun r hr => C85_removals exHeap exHeap g' hb' _ (.inr ⟨1, 4, rfl⟩) (by decide) 1 3 2 d13 r hr, fun r hr => ?_,
    (C85_new_edge exHeap exHeap g hb ⟨1, 4⟩ (by decide) 1 4 1 d14).1⟩
  obtain ⟨c, h1, h2, _⟩ := C85_triangle exHeap g hb (by decide) 1 3 4 2 1 c13 c34 r hr
  exact ⟨c, h1, h2⟩

/-- 1→2→3→4 and the new edge 1→4: the cost falls from 3 to 1. -/
example : let g := GraphCommand.applyCommands [.AddEdge 1 2, .AddEdge 2 3, .AddEdge 3 4] .new
    Built g ∧ Cost exHeap g 1 4 (some 3) ∧ Cost exHeap (g.addEdge ⟨1, 4⟩).2 1 4 (some 1) ∧ (g.addEdge ⟨1, 4⟩).2.vertexCount < 2 ^ 63 := by
  have hm : ∀ g, Mono (AStar.gcShortPath exHeap g 1 4) := by
    intro g
    unfold AStar.gcShortPath AStar.shortestPath
    exact Mono.bind (Mono.lift _) fun _ => Mono.find (fun s => by
      unfold BestFirstIter.next
      split
      · exact Mono.ret _
      · exact Mono.lift _) _ _
  exact ⟨Built.new.applyCommands _, ⟨some ⟨⟨[1, 2, 3, 4]⟩, 3⟩, (hm _).returns (n := 20) (by decide +kernel), rfl⟩,
    ⟨some ⟨⟨[1, 4]⟩, 1⟩, (hm _).returns (n := 20) (by decide +kernel), rfl⟩, by decide⟩

end GC
