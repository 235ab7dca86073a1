/-
Properties of the query commands, from arguments and command file to printed text: C71-C74.
-/
import Verif.Proofs.Main
import Verif.Proofs.Samples
import Verif.Props.Search
import Verif.Props.Topo
import Verif.Props.Args
import Verif.Props.Store
import Verif.Props.Cycle
namespace GC
open Main Text Store Args DirectedGraph TopoSort

/-! ### C71 -/

theorem acyclic_order {order : DirectedGraph → DirectedGraph} (ho : IsOrder order) {g : DirectedGraph} (hg : Built g) :
    Acyclic (order g) ↔ Acyclic g := by
  unfold Acyclic
  rw [adj_order_eq ho hg]

theorem gcTopoSort_of {nd : Char → Bool} {order : DirectedGraph → DirectedGraph} {root : FPath} {fs : FS} {g : DirectedGraph}
    (h : loadGraph nd root fs = .done (.ok g)) {r : Option (List VertexId)} (hr : Returns (topologicalSort (order g)) r) :
    Returns (gcTopoSort nd order root fs) (topoText r) :=
  (loadedGraph_ok h).bind (hr.bind (Returns.ret _))

/-- C71: on a stored acyclic graph gc-topo-sort prints all its vertices, each once, every edge going forward. -/
theorem C71_prints_order (nd : Char → Bool) (order : DirectedGraph → DirectedGraph) (ho : IsOrder order) (root : FPath) (fs : FS)
    (g : DirectedGraph) (h : loadGraph nd root fs = .done (.ok g)) (ha : Acyclic g) :
    ∃ l ids, Returns (gcTopoSort nd order root fs) ("Topological order: ".toList ++ ids ++ ['\n']) ∧ TopologicalOrder g l ∧
      PrintedIds ' ' l ids := by
  have hb := (loadGraph_built h).1
  have hob := adj_order ho hb
  obtain ⟨l, h1, h2⟩ := C39_acyclic_succeeds (order g) hob.1 ((acyclic_order ho hb).2 ha)
  refine ⟨l, _, gcTopoSort_of h h1, ?_, printedIds ' ' l⟩
  exact ⟨h2.1, fun v => (h2.2.1 v).trans (hob.2.2.1 v), fun u v huv => h2.2.2 u v ((hob.2.1 u v).2 huv)⟩

/-- C71 for graphs without self-loops: gc-topo-sort says that the graph is no DAG exactly if it has a cycle.
Missing: graphs with self-loops, see `C71_counterexample`. -/
theorem C71_not_a_dag_partial (nd : Char → Bool) (order : DirectedGraph → DirectedGraph) (ho : IsOrder order) (root : FPath) (fs : FS)
    (g : DirectedGraph) (h : loadGraph nd root fs = .done (.ok g)) (hl : LoopFree g) :
    Returns (gcTopoSort nd order root fs) "Graph is not a DAG.\n".toList ↔ ¬ Acyclic g := by
  have hb := (loadGraph_built h).1
  have hob := adj_order ho hb
  constructor
  · intro hr ha
    obtain ⟨l, ids, h1, _⟩ := C71_prints_order nd order ho root fs g h ha
    have := congrArg List.head? (hr.unique h1)
    simp at this
  · intro hc
    obtain ⟨r, h1, h2⟩ := C39_exact (order g) hob.1
    cases r with
    | none => exact gcTopoSort_of h h1
    | some l =>
      rcases h2.1 rfl with h3 | ⟨u, h3, _⟩
      · exact absurd ((acyclic_order ho hb).1 h3) hc
      · exact absurd ((hob.2.1 u u).1 h3) (hl u)

/-- C71, every stored graph: gc-topo-sort ends and prints what `TopoReport` says. -/
theorem C71_exact (nd : Char → Bool) (order : DirectedGraph → DirectedGraph) (ho : IsOrder order) (root : FPath) (fs : FS)
    (g : DirectedGraph) (h : loadGraph nd root fs = .done (.ok g)) :
    ∃ out, Returns (gcTopoSort nd order root fs) out ∧ TopoReport g out := by
  have hb := (loadGraph_built h).1
  have hob := adj_order ho hb
  have hadj := adj_order_eq ho hb
  have hloop : ∀ u, OnlyDeadEndLoop (order g) u ↔ OnlyDeadEndLoop g u := by
    intro u
    unfold OnlyDeadEndLoop
    rw [hadj]
  obtain ⟨r, h1, h2⟩ := C39_exact (order g) hob.1
  refine ⟨_, gcTopoSort_of h h1, ?_⟩
  rw [acyclic_order ho hb] at h2
  simp only [hloop] at h2
  cases r with
  | none =>
    have h3 := not_or.1 fun hh => Bool.false_ne_true (h2.2 hh)
    exact .cyclic h3.1 fun u hu => h3.2 ⟨u, hu⟩
  | some l =>
    rcases C38_order_any_graph (order g) hob.1 l h1 with h3 | ⟨u, h3, h4, h5, h6⟩
    · by_cases ha : Acyclic g
      · exact .order ha ⟨h3.1, fun v => (h3.2.1 v).trans (hob.2.2.1 v), fun u v huv => h3.2.2 u v ((hob.2.1 u v).2 huv)⟩ (printedIds ' ' l)
      · exfalso
        obtain ⟨u, hu⟩ := (h2.1 rfl).resolve_left ha
        obtain ⟨i, j, hij, hi, hj⟩ := h3.2.2 u u ((hob.2.1 u u).2 hu.1)
        have := (List.nodup_iff_getElem?_ne_getElem?.1 h3.1) i j hij (List.getElem?_eq_some_iff.1 hj).1
        exact this (hi.trans hj.symm)
    · refine .loop ((hloop u).1 h3) h4 (fun v => ?_) (fun x y hxy hy => h6 x y ((hob.2.1 x y).2 hxy) hy) (printedIds ' ' l)
      rw [h5, hob.2.2.1]

/-- C71: without a stored graph gc-topo-sort panics. -/
theorem C71_nothing_stored (nd : Char → Bool) (order : DirectedGraph → DirectedGraph) (root : FPath) (fs : FS)
    (h : ∀ g, loadGraph nd root fs ≠ .done (.ok g)) : Panics (gcTopoSort nd order root fs) := (loadedGraph_fails h).bind_left

/-- The graph of the examples of C71: 7 → 12, 3 → 7 and the isolated vertex 40. -/
def exOrdered : List GraphCommand := [.AddEdge 7 12, .AddEdge 3 7, .AddVertex 40]

/-- `C71_prints_order`, `C71_not_a_dag_partial` and `C71_exact` for it, and `C71_nothing_stored` for an empty file system. -/
example (nd : Char → Bool) : let fs := sampleFS (Format.Gcmd.commandsText exOrdered)
    (∃ l ids, Returns (gcTopoSort nd id [['d']] fs) ("Topological order: ".toList ++ ids ++ ['\n']) ∧
      TopologicalOrder (graphOf exOrdered) l ∧ PrintedIds ' ' l ids) ∧
    ¬ Returns (gcTopoSort nd id [['d']] fs) "Graph is not a DAG.\n".toList ∧
    (∃ out, Returns (gcTopoSort nd id [['d']] fs) out ∧ TopoReport (graphOf exOrdered) out) ∧
    Panics (gcTopoSort nd id [['d']] fun _ => none) := by
  have ha : Acyclic (graphOf exOrdered) := acyclic_graphOf (fun v => v.id.toNat) (by decide)
  have hl := load_sample nd exOrdered
  refine ⟨C71_prints_order nd id isOrder_id _ _ _ hl ha, fun hr => ?_, C71_exact nd id isOrder_id _ _ _ hl,
    C71_nothing_stored nd id _ _ (by intro g h; cases h)⟩
  exact (C71_not_a_dag_partial nd id isOrder_id _ _ _ hl (loopFree_graphOf (by decide))).1 hr ha

/-- `C71_not_a_dag_partial` for a graph with a cycle. -/
example (nd : Char → Bool) : Returns (gcTopoSort nd id [['d']] (sampleFS (Format.Gcmd.commandsText [.AddEdge 1 2, .AddEdge 2 1])))
    "Graph is not a DAG.\n".toList :=
  (C71_not_a_dag_partial nd id isOrder_id _ _ _ (load_sample nd _) (loopFree_graphOf (by decide))).2 fun ha =>
    ha 1 (.tail (b := 2) (.single (adj_graphOf.2 (by decide))) (adj_graphOf.2 (by decide)))

/-- C71 is false of graphs with self-loops: an order is printed although vertex 1 has a self-loop, and vertex 1 is not in it. -/
theorem C71_counterexample (nd : Char → Bool) : ∃ fs g, loadGraph nd [['d']] fs = .done (.ok g) ∧ ¬ Acyclic g ∧
    Returns (gcTopoSort nd id [['d']] fs) "Topological order: 0 \n".toList := by
  refine ⟨_, _, load_sample nd [.AddEdge 0 1, .AddEdge 1 1], ?_, ?_⟩
  · intro ha
    exact ha 1 (.single (by show DirectedGraph.containsEdge _ _ = true; decide))
  · have hr : Returns (topologicalSort (id (GraphCommand.applyCommands [.AddEdge 0 1, .AddEdge 1 1] .new))) (some [0]) := by
      refine Mono.returns (n := 3) ?_ (by decide)
      refine Mono.bind (Mono.loop (fun s => ?_) _) (fun s => ?_)
      · unfold TopoSort.step
        split <;> exact Mono.ret _
      · split <;> exact Mono.ret _
    exact gcTopoSort_of (load_sample nd _) hr

/-- A stored graph and the text printed for it. -/
example (nd : Char → Bool) : let g := GraphCommand.applyCommands [.AddEdge 7 12, .AddEdge 3 7, .AddVertex 40] .new
    loadGraph nd [['d']] (sampleFS "AddEdge 7 12\nAddEdge 3 7\nAddVertex 40\n".toList) = .done (.ok g) ∧ LoopFree g ∧ IsOrder id ∧
    topologicalSort g 9 = .done (some [3, 40, 7, 12]) ∧ topoText (some [3, 40, 7, 12]) = "Topological order: 3 40 7 12 \n".toList := by
  refine ⟨load_sample nd [.AddEdge 7 12, .AddEdge 3 7, .AddVertex 40], ?_, fun _ => .refl _, by decide, by decide⟩
  intro v hv
  have h1 := (Built.new.applyCommands [.AddEdge 7 12, .AddEdge 3 7, .AddVertex 40]).wf.mem_edges.2 hv
  have h2 : ∀ e ∈ (GraphCommand.applyCommands [.AddEdge 7 12, .AddEdge 3 7, .AddVertex 40] .new).edges, e.src ≠ e.dst := by decide
  exact h2 _ h1 rfl

/-! ### C72 -/

/-- C72: for two vertex ids and a stored graph, gc-short-path prints a path with the fewest edges, and their number; or, exactly if there
is none, that the end is not reachable. -/
theorem C72_short_path_report (H : ScoredHeap) (nd : Char → Bool) (order : DirectedGraph → DirectedGraph) (ho : IsOrder order)
    (root : FPath) (fs : FS) (g : DirectedGraph) (h : loadGraph nd root fs = .done (.ok g)) (hsize : g.vertexCount < 2 ^ 63)
    (start end_ : Text) (s e : VertexId) (hs : ArgId start s) (he : ArgId end_ e) :
    ∃ out, Returns (gcShortPath H nd order root start end_ fs) out ∧ ShortPathReport g s e out := by
  have hb := (loadGraph_built h).1
  obtain ⟨hob, hadj, hver, hcount⟩ := adj_order ho hb
  obtain ⟨r, h1, h2, h3⟩ := C33_short_path_optimal H (order g) hob (by omega) s e
  refine ⟨shortPathText s e r, ?_, ?_⟩
  · unfold gcShortPath
    rw [endpoint_ok hs, endpoint_ok he]
    exact (Returns.lift_done _).bind ((Returns.lift_done _).bind ((loadedGraph_ok h).bind (h1.bind (Returns.ret _))))
  · cases r with
    | none =>
      refine .unreachable ?_ (decimal_showId s) (decimal_showId e)
      have := h2.1 rfl
      unfold Reach at this ⊢
      rwa [adj_order_eq ho hb] at this
    | some sp =>
      obtain ⟨h4, h5, h6, h7⟩ := h3 sp rfl
      rw [walk_order ho hb] at h4
      have hne : sp.path.vertices ≠ [] := by intro e; rw [e] at h4; cases h4.2.1
      have hlen : sp.path.vertices.length ≤ 2 ^ 63 := by
        have hw := (walk_order ho hb).2 h4
        have h8 := SimplePathFrom.length_le hob.wf (l := sp.path.vertices) ⟨hw.1, hw.2.1, h5⟩
        have hv : (order g).vertices.length = (order g).vertexCount := by simp [vertexCount, vertices, HMap.keys]
        omega
      have := ShortPathReport.path h4 (fun l' hl' => h7 l' ((walk_order ho hb).2 hl')) (decimal_showId s) (decimal_showId e)
        (decimal_showInt hne hlen) (printedIds '\n' _)
      rw [← h6] at this
      exact this

/-- A path from 3 to 12 exists, none from 3 to 40. -/
example (nd : Char → Bool) (t : VertexId) (arg : Text) (ht : arg = ['1', '2'] ∧ t = 12 ∨ arg = ['4', '0'] ∧ t = 40) :
    ∃ out, Returns (gcShortPath exHeap nd id [['d']] ['3'] arg (sampleFS (Format.Gcmd.commandsText exOrdered))) out ∧
      ShortPathReport (graphOf exOrdered) 3 t out :=
  C72_short_path_report exHeap nd id isOrder_id _ _ _ (load_sample nd exOrdered) (by decide) _ _ 3 t (argId_of (by decide))
    (by rcases ht with ⟨rfl, rfl⟩ | ⟨rfl, rfl⟩ <;> exact argId_of (by decide))

/-- C72: the path can be read back from the lines printed. -/
theorem C72_text_determines_path (l l' : List VertexId) (ids : Text) (h : PrintedIds '\n' l ids) (h' : PrintedIds '\n' l' ids) : l = l' :=
  printedIds_injective (by decide) h h'

/-- C72: an argument that is no vertex id, or a missing or unreadable graph, makes gc-short-path panic. -/
theorem C72_rejects (H : ScoredHeap) (nd : Char → Bool) (order : DirectedGraph → DirectedGraph) (root : FPath) (fs : FS) (start end_ : Text)
    (h : (∀ v, ¬ ArgId start v) ∨ (∀ v, ¬ ArgId end_ v) ∨ ∀ g, loadGraph nd root fs ≠ .done (.ok g)) :
    Panics (gcShortPath H nd order root start end_ fs) := by
  have hp : ∀ {α : Type}, Panics (Prog.lift (.panicked : Run α)) := ⟨0, fun _ _ => rfl⟩
  unfold gcShortPath
  by_cases h1 : ∃ v, ArgId start v
  · obtain ⟨s, hs⟩ := h1
    rw [endpoint_ok hs]
    refine Panics.bind_right (Returns.lift_done _) ?_
    by_cases h2 : ∃ v, ArgId end_ v
    · obtain ⟨e, he⟩ := h2
      rw [endpoint_ok he]
      refine Panics.bind_right (Returns.lift_done _) ?_
      rcases h with h | h | h
      · exact absurd hs (h s)
      · exact absurd he (h e)
      · exact (loadedGraph_fails h).bind_left
    · rw [endpoint_fails (not_exists.1 h2)]
      exact hp.bind_left
  · rw [endpoint_fails (not_exists.1 h1)]
    exact hp.bind_left

example : AStar.gcShortPath exHeap (GraphCommand.applyCommands [.AddEdge 1 2, .AddEdge 2 30, .AddEdge 1 4] .new) 1 30 9 =
      .done (some ⟨⟨[1, 2, 30]⟩, 2⟩) ∧
    shortPathText 1 30 (some ⟨⟨[1, 2, 30]⟩, 2⟩) = "Shortest path from vertex 1 to vertex 30 with total cost of 2\n1\n2\n30\n".toList ∧
    ArgId ['1'] 1 ∧ ArgId "+30".toList 30 ∧ ∀ v, ¬ ArgId "1x".toList v := by
  refine ⟨by decide +kernel, by decide, parseVertexId_iff.1 (by decide), parseVertexId_iff.1 (by decide), ?_⟩
  intro v hv
  have h1 : parseVertexId "1x".toList = some v.id := parseVertexId_iff.2 hv
  rw [show parseVertexId "1x".toList = none by decide] at h1
  cases h1

/-! ### C73 -/

theorem gcCsp_inv {H : ScoredHeap} {nd : Char → Bool} {order : DirectedGraph → DirectedGraph} {root : FPath} {fs : FS} {g : DirectedGraph}
    (h : loadGraph nd root fs = .done (.ok g)) {start end_ : Text} {s e : VertexId} (hs : ArgId start s) (he : ArgId end_ e)
    {a : CspArgs} {out : Text} (hr : Returns (gcCsp H nd order root start end_ a fs) out) :
    ∃ r, Returns (AStar.gcCsp H (order g) s e (cspConstraints a)) r ∧ out = constraintsText (cspConstraints a) ++ cspText s e r := by
  unfold gcCsp at hr
  rw [endpoint_ok hs, endpoint_ok he] at hr
  have hr := Returns.of_bind_left (loadedGraph_ok h) (Returns.of_bind_left (Returns.lift_done _) (Returns.of_bind_left (Returns.lift_done _) hr))
  have hm : Mono (AStar.gcCsp H (order g) s e (cspConstraints a)) := by
    unfold AStar.gcCsp AStar.constrainedShortestPath
    exact Mono.bind (Mono.lift _) fun s => Mono.find ConstrainedBestFirstIter.mono_next _ _
  obtain ⟨r, h1, h2⟩ := bind_inv hm hr
  exact ⟨r, h1, h2.unique (Returns.ret _)⟩

theorem gcCsp_of {H : ScoredHeap} {nd : Char → Bool} {order : DirectedGraph → DirectedGraph} {root : FPath} {fs : FS} {g : DirectedGraph}
    (h : loadGraph nd root fs = .done (.ok g)) {start end_ : Text} {s e : VertexId} (hs : ArgId start s) (he : ArgId end_ e)
    {a : CspArgs} {r : Option ScoredPath} (hr : Returns (AStar.gcCsp H (order g) s e (cspConstraints a)) r) :
    Returns (gcCsp H nd order root start end_ a fs) (constraintsText (cspConstraints a) ++ cspText s e r) := by
  unfold gcCsp
  rw [endpoint_ok hs, endpoint_ok he]
  exact (Returns.lift_done _).bind ((Returns.lift_done _).bind ((loadedGraph_ok h).bind (hr.bind (Returns.ret _))))

theorem satisfies_options (a : CspArgs) (sp : ScoredPath) : (∀ c ∈ cspConstraints a, Satisfies sp c) ↔ CspAccepts a sp := by
  rw [← C23_csp_accepts a sp, List.all_eq_true]
  simp only [checkComplete_iff]

theorem accepts_meets {a : CspArgs} (hmax : a.maxScore = none) (sp : ScoredPath) : CspAccepts a sp ↔ CspMeets a sp := by
  simp [CspAccepts, hmax]

theorem selects_solution {a : CspArgs} (hmax : a.maxScore = none) {g : DirectedGraph} {s e : VertexId} {l : List VertexId} :
    CspSelects g s e a l ↔ CspSolution g s e a l := by
  unfold CspSelects CspSolution
  rw [accepts_meets hmax]

theorem answer_report {a : CspArgs} (hmax : a.maxScore = none) {g : DirectedGraph} {s e : VertexId} {t : Text}
    (h : CspAnswer g s e a t) : CspReport g s e a t := by
  cases h with
  | path hw hm hmin hx hy hk hi =>
    exact .path hw ((accepts_meets hmax _).1 hm) (fun l' hl' => hmin l' ((selects_solution hmax).2 hl')) hx hy hk hi
  | unreachable hn hx hy => exact .unreachable (fun l hl => hn l ((selects_solution hmax).2 hl)) hx hy

/-- C73: if gc-csp ends, it has printed, after the list of the constraints, a shortest walk that the options select, or, exactly if there is
none, that there is none. With max-score the options do not select what they should, see `C73_counterexample_max_score`. -/
theorem C73_exact (H : ScoredHeap) (nd : Char → Bool) (order : DirectedGraph → DirectedGraph) (ho : IsOrder order)
    (root : FPath) (fs : FS) (g : DirectedGraph) (h : loadGraph nd root fs = .done (.ok g)) (start end_ : Text) (s e : VertexId)
    (hs : ArgId start s) (he : ArgId end_ e) (a : CspArgs) (out : Text)
    (hr : Returns (gcCsp H nd order root start end_ a fs) out) :
    ∃ report, out = constraintsText (cspConstraints a) ++ report ∧ CspAnswer g s e a report := by
  have hb := (loadGraph_built h).1
  obtain ⟨hob, hadj, hver, hcount⟩ := adj_order ho hb
  obtain ⟨r, h1, rfl⟩ := gcCsp_inv h hs he hr
  refine ⟨_, rfl, ?_⟩
  have hbest : ∀ l, CspSelects g s e a l → ∃ sp, r = some sp ∧ sp.score ≤ (l.length : Int) - 1 := by
    rintro l ⟨hw, hl, hmeet⟩
    have hne : l ≠ [] := by intro e; rw [e] at hw; cases hw.2.1
    refine C36_constrained_optimal H (order g) hob _ _ s e _ (monotone_unit _ _) r h1 ⟨⟨l⟩, (l.length : Int) - 1⟩ ((walk_order ho hb).2 hw) ?_
      ((satisfies_options a _).2 hmeet)
    rw [unit_score _ _ hne, if_pos (by simp only; omega)]
  cases r with
  | none =>
    refine .unreachable (fun l hl => ?_) (decimal_showId s) (decimal_showId e)
    obtain ⟨sp, h2, _⟩ := hbest l hl
    cases h2
  | some sp =>
    obtain ⟨h2, h3, c1, c2, h4, h5, h6⟩ := C35_constrained_valid H (order g) hob _ _ s e _ sp h1
    have hne : sp.path.vertices ≠ [] := by intro e; rw [e] at h2; cases h2.2.1
    have hscore : sp.score = (sp.path.vertices.length : Int) - 1 ∧ sp.path.vertices.length ≤ 2 ^ 63 := by
      have hz : c2 = 0 := (Run.done.inj h5).symm
      rw [oneWeightedEdge_eq _ _ hne] at h4
      split at h4
      · have := Run.done.inj h4
        omega
      · cases h4
    have hsp : sp = ⟨⟨sp.path.vertices⟩, (sp.path.vertices.length : Int) - 1⟩ := by rw [← hscore.1]
    have := CspAnswer.path (a := a) ((walk_order ho hb).1 h2) (by rw [← hsp]; exact (satisfies_options a _).1 h3) ?_ (decimal_showId s)
      (decimal_showId e) (decimal_showInt hne hscore.2) (printedIds '\n' _)
    · rw [← hscore.1] at this
      exact this
    · intro l' hl'
      obtain ⟨sp', h7, h8⟩ := hbest l' hl'
      cases h7
      have := hscore.1
      omega

/-- C73 without the option max-score: if gc-csp ends, it has printed, after the list of the constraints, a shortest walk that meets the
options, or, exactly if there is none, that there is none. Missing: max-score, see `C73_counterexample_max_score`, and termination without
further hypotheses, see `C73_counterexample`. -/
theorem C73_report_partial (H : ScoredHeap) (nd : Char → Bool) (order : DirectedGraph → DirectedGraph) (ho : IsOrder order)
    (root : FPath) (fs : FS) (g : DirectedGraph) (h : loadGraph nd root fs = .done (.ok g)) (start end_ : Text) (s e : VertexId)
    (hs : ArgId start s) (he : ArgId end_ e) (a : CspArgs) (hmax : a.maxScore = none) (out : Text)
    (hr : Returns (gcCsp H nd order root start end_ a fs) out) :
    ∃ report, out = constraintsText (cspConstraints a) ++ report ∧ CspReport g s e a report := by
  obtain ⟨report, h1, h2⟩ := C73_exact H nd order ho root fs g h start end_ s e hs he a out hr
  exact ⟨report, h1, answer_report hmax h2⟩

/-- C73: if the options select some walk, gc-csp ends and prints a shortest one. -/
theorem C73_finds (H : ScoredHeap) (nd : Char → Bool) (order : DirectedGraph → DirectedGraph) (ho : IsOrder order)
    (root : FPath) (fs : FS) (g : DirectedGraph) (h : loadGraph nd root fs = .done (.ok g)) (start end_ : Text) (s e : VertexId)
    (hs : ArgId start s) (he : ArgId end_ e) (a : CspArgs) (l : List VertexId) (hl : CspSelects g s e a l) :
    ∃ report, Returns (gcCsp H nd order root start end_ a fs) (constraintsText (cspConstraints a) ++ report) ∧ CspAnswer g s e a report := by
  have hb := (loadGraph_built h).1
  obtain ⟨hob, hadj, hver, hcount⟩ := adj_order ho hb
  obtain ⟨sp, h1, _⟩ := C37_finds_solution_partial H (order g) hob s e (cspConstraints a) ⟨l⟩ ((walk_order ho hb).2 hl.1) hl.2.1
    ((satisfies_options a _).2 hl.2.2)
  have h2 := gcCsp_of (order := order) h hs he h1
  obtain ⟨report, h3, h4⟩ := C73_exact H nd order ho root fs g h start end_ s e hs he a _ h2
  exact ⟨report, h3 ▸ h2, h4⟩

/-- C73 without the option max-score: if some walk meets the options, gc-csp ends and prints a shortest one. Missing: max-score. -/
theorem C73_finds_partial (H : ScoredHeap) (nd : Char → Bool) (order : DirectedGraph → DirectedGraph) (ho : IsOrder order)
    (root : FPath) (fs : FS) (g : DirectedGraph) (h : loadGraph nd root fs = .done (.ok g)) (start end_ : Text) (s e : VertexId)
    (hs : ArgId start s) (he : ArgId end_ e) (a : CspArgs) (hmax : a.maxScore = none) (l : List VertexId) (hl : CspSolution g s e a l) :
    ∃ report, Returns (gcCsp H nd order root start end_ a fs) (constraintsText (cspConstraints a) ++ report) ∧ CspReport g s e a report := by
  obtain ⟨report, h1, h2⟩ := C73_finds H nd order ho root fs g h start end_ s e hs he a l ((selects_solution hmax).2 hl)
  exact ⟨report, h1, answer_report hmax h2⟩

/-- The options bound the walks: they must not visit a vertex twice, or their length or score is limited. -/
def BoundedOptions (a : CspArgs) : Prop :=
  a.noCycle = true ∨ (∃ t n, (a.maxLength = some t ∨ a.exactLength = some t) ∧ ArgNat t n ∧ n < 2 ^ 63) ∨
  ∃ t i, a.exactScore = some t ∧ ArgInt t i ∧ i < 2 ^ 63 - 1

/-- C73 without the option max-score: if the options bound the walks, gc-csp ends in any case. Missing: max-score, and other options. -/
theorem C73_bounded_ends_partial (H : ScoredHeap) (nd : Char → Bool) (order : DirectedGraph → DirectedGraph) (ho : IsOrder order)
    (root : FPath) (fs : FS) (g : DirectedGraph) (h : loadGraph nd root fs = .done (.ok g)) (hsize : g.vertexCount < 2 ^ 63 - 1)
    (start end_ : Text) (s e : VertexId) (hs : ArgId start s) (he : ArgId end_ e) (a : CspArgs) (hmax : a.maxScore = none)
    (hbound : BoundedOptions a) :
    ∃ report, Returns (gcCsp H nd order root start end_ a fs) (constraintsText (cspConstraints a) ++ report) ∧ CspReport g s e a report := by
  have hb := (loadGraph_built h).1
  obtain ⟨hob, hadj, hver, hcount⟩ := adj_order ho hb
  obtain ⟨r, h1, _⟩ := C37_bounded_constraints_partial H (order g) hob s e (cspConstraints a) (by omega) (by
    rcases hbound with h | ⟨t, n, h, hn, hlt⟩ | ⟨t, i, h, hi, hlt⟩
    · refine .inr (.inr ?_)
      simp [cspConstraints, h, optionOf, buildNoCycle]
    · refine .inl ⟨n, hlt, ?_⟩
      have hp := parseUsize_iff.2 hn
      rcases h with h | h <;> simp [cspConstraints, h, hp, buildMaxLength, buildExactLength]
    · refine .inr (.inl ⟨i, hlt, ?_⟩)
      have hp := parseI64_iff.2 hi
      simp [cspConstraints, h, hp, buildExactScore])
  have h2 := gcCsp_of (order := order) h hs he h1
  obtain ⟨report, h3, h4⟩ := C73_report_partial H nd order ho root fs g h start end_ s e hs he a hmax _ h2
  exact ⟨report, h3 ▸ h2, h4⟩

/-- C73: an argument that is no vertex id, or a missing or unreadable graph, makes gc-csp panic. -/
theorem C73_rejects (H : ScoredHeap) (nd : Char → Bool) (order : DirectedGraph → DirectedGraph) (root : FPath) (fs : FS) (start end_ : Text)
    (a : CspArgs) (h : (∀ v, ¬ ArgId start v) ∨ (∀ v, ¬ ArgId end_ v) ∨ ∀ g, loadGraph nd root fs ≠ .done (.ok g)) :
    Panics (gcCsp H nd order root start end_ a fs) := by
  have hp : ∀ {α : Type}, Panics (Prog.lift (.panicked : Run α)) := ⟨0, fun _ _ => rfl⟩
  unfold gcCsp
  by_cases h1 : ∃ v, ArgId start v
  · obtain ⟨s, hs⟩ := h1
    rw [endpoint_ok hs]
    refine Panics.bind_right (Returns.lift_done _) ?_
    by_cases h2 : ∃ v, ArgId end_ v
    · obtain ⟨e, he⟩ := h2
      rw [endpoint_ok he]
      refine Panics.bind_right (Returns.lift_done _) ?_
      rcases h with h | h | h
      · exact absurd hs (h s)
      · exact absurd he (h e)
      · exact (loadedGraph_fails h).bind_left
    · rw [endpoint_fails (not_exists.1 h2)]
      exact hp.bind_left
  · rw [endpoint_fails (not_exists.1 h1)]
    exact hp.bind_left

/-- The ring 1, 2, 3 with the exit 3 → 4, and options that ask for a walk of 7 vertices through 2 with a repeated vertex. -/
def exRing : List GraphCommand := [.AddEdge 1 2, .AddEdge 2 3, .AddEdge 3 1, .AddEdge 3 4]
/-- See `exRing`. -/
def exRingArgs : CspArgs := { include_ := some [['2']], includeCycle := true, exactLength := some ['7'] }

theorem exRing_solution : CspSolution (graphOf exRing) 1 4 exRingArgs [1, 2, 3, 1, 2, 3, 4] :=
  ⟨⟨by simp only [List.isChain_cons_cons, List.isChain_singleton, Adj]; decide, rfl, rfl⟩, by decide,
    (C23_csp_options_partial _ rfl _).1 (by decide)⟩

/-- `C73_finds`, `C73_finds_partial`, `C73_bounded_ends_partial`, `C73_exact` and `C73_report_partial`: gc-csp returns on this graph, and
whatever it prints is the answer. `C73_rejects`: the start is not a number. -/
example (nd : Char → Bool) : let fs := sampleFS (Format.Gcmd.commandsText exRing)
    let program := gcCsp exHeap nd id [['d']] ['1'] ['4'] exRingArgs fs
    (∃ report, Returns program (constraintsText (cspConstraints exRingArgs) ++ report) ∧ CspAnswer (graphOf exRing) 1 4 exRingArgs report) ∧
    (∃ report, Returns program (constraintsText (cspConstraints exRingArgs) ++ report) ∧ CspReport (graphOf exRing) 1 4 exRingArgs report) ∧
    (∀ out, Returns program out → (∃ report, out = constraintsText (cspConstraints exRingArgs) ++ report ∧
      CspAnswer (graphOf exRing) 1 4 exRingArgs report) ∧ ∃ report, out = constraintsText (cspConstraints exRingArgs) ++ report ∧
      CspReport (graphOf exRing) 1 4 exRingArgs report) ∧
    Panics (gcCsp exHeap nd id [['d']] ['x'] ['4'] exRingArgs fs) := by
  have hl := load_sample nd exRing
  have h1 : ArgId ['1'] 1 := argId_of (by decide)
  have h4 : ArgId ['4'] 4 := argId_of (by decide)
  have hb : BoundedOptions exRingArgs := .inr (.inl ⟨_, 7, .inr rfl, parseUsize_iff.1 (by decide), by decide⟩)
  have := C73_finds_partial exHeap nd id isOrder_id _ _ _ hl _ _ 1 4 h1 h4 exRingArgs rfl _ exRing_solution
  exact ⟨C73_finds exHeap nd id isOrder_id _ _ _ hl _ _ 1 4 h1 h4 exRingArgs _ ((selects_solution rfl).2 exRing_solution),
    C73_bounded_ends_partial exHeap nd id isOrder_id _ _ _ hl (by decide) _ _ 1 4 h1 h4 exRingArgs rfl hb,
    fun out hr => ⟨C73_exact exHeap nd id isOrder_id _ _ _ hl _ _ 1 4 h1 h4 exRingArgs out hr,
      C73_report_partial exHeap nd id isOrder_id _ _ _ hl _ _ 1 4 h1 h4 exRingArgs rfl out hr⟩,
    C73_rejects exHeap nd id _ _ _ _ _ (.inl fun v hv => by
      have := parseVertexId_iff.2 hv
      rw [show parseVertexId ['x'] = none by decide] at this
      cases this)⟩

/-- C73 is false: on a stored graph with a cycle, gc-csp without options never ends if the end is not reachable. -/
theorem C73_counterexample (nd : Char → Bool) : ∃ fs g, loadGraph nd [['d']] fs = .done (.ok g) ∧ (∀ l, ¬ WalkFromTo g 1 3 l) ∧
    ∀ H out, ¬ Returns (gcCsp H nd id [['d']] ['1'] ['3'] {} fs) out := by
  obtain ⟨_, h2, h3⟩ := C37_counterexample
  refine ⟨_, _, load_sample nd [.AddEdge 1 2, .AddEdge 2 1, .AddVertex 3], fun l hl => h2 ⟨l⟩ hl, fun H out hr => ?_⟩
  obtain ⟨r, h4, _⟩ := gcCsp_inv (load_sample nd _) (s := 1) (e := 3) (parseVertexId_iff.1 (by decide)) (parseVertexId_iff.1 (by decide)) hr
  exact h3 H r h4

/-- C73 is false of the option max-score: with `max-score 5` gc-csp says that there is no path, although there is one of score 1. -/
theorem C73_counterexample_max_score (nd : Char → Bool) : ∃ fs g, loadGraph nd [['d']] fs = .done (.ok g) ∧ WalkFromTo g 1 2 [1, 2] ∧
    MeetsMaxScore (some ['5']) ⟨⟨[1, 2]⟩, 1⟩ ∧
    Returns (gcCsp exHeap nd id [['d']] ['1'] ['2'] { maxScore := some ['5'] } fs)
      ("Constraint that will be applied to search are: \nMinScore(5)\n".toList ++
        "Vertex 2 is not reachable from vertex 1 within the given constraints.\n".toList) := by
  refine ⟨_, _, load_sample nd [.AddEdge 1 2], ⟨?_, rfl, rfl⟩, ?_, ?_⟩
  · simp only [List.isChain_cons_cons, List.isChain_singleton, Adj]; decide
  · intro t i ht hi
    cases ht
    have h5 := parseI64_iff.2 hi
    rw [show parseI64 ['5'] = some 5 by decide] at h5
    cases h5
    decide
  · have hm : Mono (AStar.gcCsp exHeap (GraphCommand.applyCommands [.AddEdge 1 2] .new) 1 2 (cspConstraints { maxScore := some ['5'] })) := by
      unfold AStar.gcCsp AStar.constrainedShortestPath
      exact Mono.bind (Mono.lift _) fun s => Mono.find ConstrainedBestFirstIter.mono_next _ _
    exact gcCsp_of (order := id) (load_sample nd _) (s := 1) (e := 2) (parseVertexId_iff.1 (by decide)) (parseVertexId_iff.1 (by decide))
      (hm.returns (n := 5) (a := none) (by decide +kernel))

/-- Options met by a walk that goes round a cycle of the stored graph; they bound the walks. -/
example (nd : Char → Bool) : let g := GraphCommand.applyCommands [.AddEdge 1 2, .AddEdge 2 3, .AddEdge 3 1, .AddEdge 3 4] .new
    let a : CspArgs := { include_ := some [['2']], includeCycle := true, exactLength := some ['7'] }
    loadGraph nd [['d']] (sampleFS "AddEdge 1 2\nAddEdge 2 3\nAddEdge 3 1\nAddEdge 3 4\n".toList) = .done (.ok g) ∧
    CspSolution g 1 4 a [1, 2, 3, 1, 2, 3, 4] ∧ BoundedOptions a ∧
    AStar.gcCsp exHeap g 1 4 (cspConstraints a) 99 = .done (some ⟨⟨[1, 2, 3, 1, 2, 3, 4]⟩, 6⟩) ∧
    constraintsText (cspConstraints a) ++ cspText 1 4 (some ⟨⟨[1, 2, 3, 1, 2, 3, 4]⟩, 6⟩) =
      ("Constraint that will be applied to search are: \nContainsVertex(VertexId(2))\nContainsCycle\nMinLength(7)\nMaxLength(7)\n" ++
      "Constrained shortest path from vertex 1 to vertex 4 with total cost of 6.\n1\n2\n3\n1\n2\n3\n4\n").toList := by
  refine ⟨load_sample nd [.AddEdge 1 2, .AddEdge 2 3, .AddEdge 3 1, .AddEdge 3 4], ⟨⟨?_, rfl, rfl⟩, by decide, ?_⟩, ?_, by decide +kernel, by decide +kernel⟩
  · simp only [List.isChain_cons_cons, List.isChain_singleton, Adj]; decide
  · exact (C23_csp_options_partial _ rfl _).1 (by decide)
  · exact .inr (.inl ⟨_, 7, .inr rfl, parseUsize_iff.1 (by decide), by decide⟩)

/-! ### C74 -/

theorem cycle_order {order : DirectedGraph → DirectedGraph} (ho : IsOrder order) {g : DirectedGraph} (hg : Built g) (l : List VertexId) :
    IsCycle (order g) l ↔ IsCycle g l := by
  unfold IsCycle
  rw [adj_order_eq ho hg]

theorem gcCycle_of {nd : Char → Bool} {order : DirectedGraph → DirectedGraph} {root : FPath} {fs : FS} {g : DirectedGraph}
    (h : loadGraph nd root fs = .done (.ok g)) {act : GcCycle.Actions} {a : CycleArgs} {out : List Text}
    (hr : Returns (GcCycle.main (order g) act a) out) : Returns (gcCycle nd order root act a fs) out := (loadedGraph_ok h).bind hr

/-- C74: `gc-cycle --hamiltonian` prints a cycle through all vertices of the stored graph, or `N/A` if there is none. -/
theorem C74_hamiltonian (nd : Char → Bool) (order : DirectedGraph → DirectedGraph) (ho : IsOrder order) (root : FPath) (fs : FS)
    (g : DirectedGraph) (h : loadGraph nd root fs = .done (.ok g)) (a : CycleArgs) :
    ∃ t, Returns (gcCycle nd order root { hamiltonian := true } a fs) ["hamiltonian: ".toList ++ t] ∧
      ((t = "N/A".toList ∧ ∀ l, ¬ HamiltonianCycle g l) ∨ ∃ c, t = GcCycle.formatCycle c ∧ HamiltonianCycle g c.vertices) := by
  have hb := (loadGraph_built h).1
  obtain ⟨hob, hadj, hver, hcount⟩ := adj_order ho hb
  have hh : ∀ l, HamiltonianCycle (order g) l ↔ HamiltonianCycle g l := by
    intro l
    unfold HamiltonianCycle
    rw [cycle_order ho hb]
    simp only [hver]
  obtain ⟨_, t, h1, h2⟩ := C53_girth_hamiltonian (order g) hob a
  refine ⟨t, gcCycle_of h h1, ?_⟩
  simpa only [hh] using h2

/-- C74, if every vertex of the stored graph can be reached from a vertex without incoming edge, or every vertex from every vertex:
`gc-cycle --all` prints every cycle of the stored graph once, starting with its smallest vertex, and `--count` their number, whatever the
iteration order of the hash map. Missing: other graphs, see `C74_counterexample`. -/
theorem C74_all_cycles_partial (nd : Char → Bool) (order : DirectedGraph → DirectedGraph) (ho : IsOrder order) (root : FPath) (fs : FS)
    (g : DirectedGraph) (h : loadGraph nd root fs = .done (.ok g)) (hc : RootReachable g ∨ StronglyConnected g) :
    ∃ cs : List Cycle, cs.Nodup ∧ (∀ c, c ∈ cs ↔ IsCycle g c.vertices ∧ SmallestFirst c.vertices) ∧
      Returns (gcCycle nd order root { all := true } {} fs) (cs.map GcCycle.formatCycle) ∧
      Returns (gcCycle nd order root { count := true } {} fs) ["count: ".toList ++ GcCycle.showNat cs.length] := by
  have hb := (loadGraph_built h).1
  obtain ⟨hob, hadj, hver, hcount⟩ := adj_order ho hb
  have hc' : RootReachable (order g) ∨ StronglyConnected (order g) := by
    have ha := adj_order_eq ho hb
    rcases hc with hc | hc
    · left
      intro v hv
      obtain ⟨r, hr, hrv⟩ := hc v ((hver v).1 hv)
      refine ⟨r, ⟨(hver r).2 hr.1, fun u hu => hr.2 u ((hadj u r).1 hu)⟩, ?_⟩
      unfold Reach at hrv ⊢
      rwa [ha]
    · right
      intro u v hu hv
      have := hc u v ((hver u).1 hu) ((hver v).1 hv)
      unfold Reach at this ⊢
      rwa [ha]
  obtain ⟨cs, sel, h1, h2, h3, h4, _, _, _, _, h5⟩ := C53_selected_partial (order g) hob {} rfl (by
    rintro l e _ _ (⟨t, es, ht, _⟩ | ⟨t, es, ht, _⟩) <;> cases ht)
  have hsel : sel = cs := by
    refine h2.eq_of_length_le ?_
    have : ∀ c ∈ cs, c ∈ sel := fun c hc => (h3 c hc).2 (by
      refine ⟨?_, ?_, ?_, ?_, ?_, ?_, ?_, ?_, ?_⟩ <;> (intro _ _ he; cases he))
    obtain ⟨cs', h6, h7, _⟩ := C48_cycle_iter_sound (order g) hob
    cases h1.unique h6
    exact (List.subperm_of_subset h7 this).length_le
  subst hsel
  obtain ⟨cs', h6, h7, h8, h9⟩ := C48_cycle_iter_sound (order g) hob
  cases h1.unique h6
  obtain ⟨cs', h10, h11⟩ := C49_complete_partial (order g) hob hc'
  cases h1.unique h10
  refine ⟨sel, h7, fun c => ⟨fun hc => ?_, fun hc => ?_⟩, gcCycle_of h h5, gcCycle_of h h4⟩
  · exact ⟨(cycle_order ho hb _).1 (h8 c hc).1, (h8 c hc).2⟩
  · obtain ⟨d, hd, hr⟩ := h11 c.vertices ((cycle_order ho hb _).2 hc.1)
    have := canonical_unique (h8 d hd).1.2.1 hr (h8 d hd).2 hc.2
    have e : d = c := by cases c; cases d; simp_all
    exact e ▸ hd

theorem IsCycle.not_acyclic {g : DirectedGraph} {l : List VertexId} (h : IsCycle g l) : ¬ Acyclic g := by
  intro ha
  obtain ⟨h1, _, h3⟩ := h
  cases l with
  | nil => exact h1 rfl
  | cons v t =>
    have h4 := (h3.imp fun _ _ h => Relation.TransGen.single h : List.IsChain (Relation.TransGen (Adj g)) _).pairwise
    simp only [List.head?_cons, Option.toList_some, List.cons_append, List.pairwise_cons] at h4
    exact ha v (h4.1 v (by simp))

/-- C74, every stored graph: the cycles that `gc-cycle --all` prints and `--count` counts are those, starting with their smallest vertex and
without repetition, with a vertex reachable from a vertex without incoming edge; if every vertex has an incoming edge, those with a vertex
reachable from a certain vertex `s` of the graph. -/
theorem C74_exact (nd : Char → Bool) (order : DirectedGraph → DirectedGraph) (ho : IsOrder order) (root : FPath) (fs : FS)
    (g : DirectedGraph) (h : loadGraph nd root fs = .done (.ok g)) :
    ∃ (cs : List Cycle) (s : VertexId), cs.Nodup ∧ (∀ v, g.containsVertex v = true → g.containsVertex s = true) ∧
      (∀ c, c ∈ cs ↔ IsCycle g c.vertices ∧ SmallestFirst c.vertices ∧
        ∃ r v, (IsRoot g r ∨ (∀ r', ¬ IsRoot g r') ∧ r = s) ∧ v ∈ c.vertices ∧ Reach g r v) ∧
      Returns (gcCycle nd order root { all := true } {} fs) (cs.map GcCycle.formatCycle) ∧
      Returns (gcCycle nd order root { count := true } {} fs) ["count: ".toList ++ GcCycle.showNat cs.length] := by
  have hb := (loadGraph_built h).1
  obtain ⟨hob, hadj, hver, hcount⟩ := adj_order ho hb
  have ha := adj_order_eq ho hb
  have hroot : ∀ r, IsRoot (order g) r ↔ IsRoot g r := fun r =>
    ⟨fun hr => ⟨(hver r).1 hr.1, fun u hu => hr.2 u ((hadj u r).2 hu)⟩, fun hr => ⟨(hver r).2 hr.1, fun u hu => hr.2 u ((hadj u r).1 hu)⟩⟩
  have hreach : ∀ u v, Reach (order g) u v ↔ Reach g u v := fun u v => by unfold Reach; rw [ha]
  obtain ⟨cs, sel, h1, h2, h3, h4, _, _, _, _, h5⟩ := C53_selected_partial (order g) hob {} rfl (by
    rintro l e _ _ (⟨t, es, ht, _⟩ | ⟨t, es, ht, _⟩) <;> cases ht)
  obtain ⟨cs', h6, h7, h8, h9⟩ := C48_cycle_iter_sound (order g) hob
  cases h1.unique h6
  have hsel : sel = cs := by
    refine h2.eq_of_length_le ?_
    have : ∀ c ∈ cs, c ∈ sel := fun c hc => (h3 c hc).2 (by
      refine ⟨?_, ?_, ?_, ?_, ?_, ?_, ?_, ?_, ?_⟩ <;> (intro _ _ he; cases he))
    exact (List.subperm_of_subset h7 this).length_le
  subst hsel
  obtain ⟨cs', h10, h11⟩ := C49_exact (order g) hob
  cases h1.unique h10
  have hhead : ∀ s, (order g).headOption = some s → (order g).containsVertex s = true := by
    intro s hs
    exact mem_vertices.1 (List.mem_of_head? hs)
  have hnone : (order g).headOption = none → ∀ v, (order g).containsVertex v ≠ true := by
    intro hs v hv
    have hv := mem_vertices.2 hv
    have : (order g).vertices = [] := List.head?_eq_none_iff.1 hs
    rw [this] at hv
    cases hv
  refine ⟨sel, (order g).headOption.getD 0, h7, ?_, fun c => ⟨fun hc => ?_, fun hc => ?_⟩, gcCycle_of h h5, gcCycle_of h h4⟩
  · intro v hv
    cases hs : (order g).headOption with
    | none => exact absurd ((hver v).2 hv) (hnone hs v)
    | some s => exact (hver s).1 (hhead s hs)
  · refine ⟨(cycle_order ho hb _).1 (h8 c hc).1, (h8 c hc).2, ?_⟩
    obtain ⟨r, v, hr, hv, hrv⟩ := (h11 c.vertices (h8 c hc).1).1 ⟨c, hc, List.IsRotated.refl _⟩
    refine ⟨r, v, ?_, hv, (hreach _ _).1 hrv⟩
    rcases hr with hr | ⟨hr, hs⟩
    · exact .inl ((hroot r).1 hr)
    · exact .inr ⟨fun r' hr' => hr r' ((hroot r').2 hr'), by rw [hs]; rfl⟩
  · obtain ⟨hc1, hc2, r, v, hr, hv, hrv⟩ := hc
    have hcyc := (cycle_order ho hb _).2 hc1
    obtain ⟨d, hd, hrot⟩ := (h11 c.vertices hcyc).2 (by
      refine ⟨r, v, ?_, hv, (hreach _ _).2 hrv⟩
      rcases hr with hr | ⟨hr, hs⟩
      · exact .inl ((hroot r).2 hr)
      · refine .inr ⟨fun r' hr' => hr r' ((hroot r').1 hr'), ?_⟩
        cases hs' : (order g).headOption with
        | none => exact absurd (mem_vertices.1 (hcyc.vertex hob.wf hv)) (hnone hs' v)
        | some s => rw [hs, hs']; rfl)
    have := canonical_unique (h8 d hd).1.2.1 hrot (h8 d hd).2 hc2
    have e : d = c := by cases c; cases d; simp_all
    exact e ▸ hd

/-- C74: on a stored graph without cycles, `gc-cycle --all` prints nothing and `gc-cycle --count` prints 0. -/
theorem C74_acyclic (nd : Char → Bool) (order : DirectedGraph → DirectedGraph) (ho : IsOrder order) (root : FPath) (fs : FS)
    (g : DirectedGraph) (h : loadGraph nd root fs = .done (.ok g)) (ha : Acyclic g) :
    Returns (gcCycle nd order root { all := true } {} fs) [] ∧ Returns (gcCycle nd order root { count := true } {} fs) ["count: 0".toList] := by
  obtain ⟨cs, s, _, _, h1, h2, h3⟩ := C74_exact nd order ho root fs g h
  have : cs = [] := List.eq_nil_iff_forall_not_mem.2 fun c hc => ((h1 c).1 hc).1.not_acyclic ha
  subst this
  refine ⟨h2, ?_⟩
  have e : "count: ".toList ++ GcCycle.showNat ([] : List Cycle).length = "count: 0".toList := by decide
  rwa [e] at h3

/-- `C74_hamiltonian`, `C74_exact` and `C74_all_cycles_partial` (the root 0 reaches everything), `C74_acyclic`. -/
example (nd : Char → Bool) : let cs : List GraphCommand := [.AddEdge 0 1, .AddEdge 1 2, .AddEdge 2 1]
    let fs := sampleFS (Format.Gcmd.commandsText cs)
    (∃ t, Returns (gcCycle nd id [['d']] { hamiltonian := true } {} fs) ["hamiltonian: ".toList ++ t] ∧
      ((t = "N/A".toList ∧ ∀ l, ¬ HamiltonianCycle (graphOf cs) l) ∨
        ∃ c, t = GcCycle.formatCycle c ∧ HamiltonianCycle (graphOf cs) c.vertices)) ∧
    (∃ found : List Cycle, found.Nodup ∧ (∀ c, c ∈ found ↔ IsCycle (graphOf cs) c.vertices ∧ SmallestFirst c.vertices) ∧
      Returns (gcCycle nd id [['d']] { all := true } {} fs) (found.map GcCycle.formatCycle)) ∧
    Returns (gcCycle nd id [['d']] { count := true } {} (sampleFS (Format.Gcmd.commandsText exOrdered))) ["count: 0".toList] := by
  intro cs fs
  have hl := load_sample nd cs
  have hr : RootReachable (graphOf cs) := by
    intro v hv
    have h0 : IsRoot (graphOf cs) 0 := ⟨by decide, fun u hu => by
      have := adj_graphOf.1 hu
      revert this
      have h1 : ∀ e ∈ (graphOf cs).edges, e.dst ≠ 0 := by decide
      exact fun h2 => h1 _ h2 rfl⟩
    have h01 : Adj (graphOf cs) 0 1 := adj_graphOf.2 (by decide)
    have h12 : Adj (graphOf cs) 1 2 := adj_graphOf.2 (by decide)
    have h3 : v ∈ [0, 1, 2] := (by decide : ∀ w ∈ (graphOf cs).vertices, w ∈ [0, 1, 2]) v (mem_vertices.2 hv)
    simp only [List.mem_cons, List.not_mem_nil, or_false] at h3
    rcases h3 with rfl | rfl | rfl
    · exact ⟨0, h0, .refl⟩
    · exact ⟨0, h0, .single h01⟩
    · exact ⟨0, h0, .tail (.single h01) h12⟩
  obtain ⟨found, k1, k2, k3, _⟩ := C74_all_cycles_partial nd id isOrder_id _ _ _ hl (.inl hr)
  have := C74_exact nd id isOrder_id _ _ _ hl
  exact ⟨C74_hamiltonian nd id isOrder_id _ _ _ hl {}, ⟨found, k1, k2, k3⟩,
    (C74_acyclic nd id isOrder_id _ _ _ (load_sample nd exOrdered) (acyclic_graphOf (fun v => v.id.toNat) (by decide))).2⟩

/-- C74 is false: for one and the same command file, the number of cycles printed depends on the iteration order of the hash map. -/
theorem C74_counterexample (nd : Char → Bool) : ∃ fs, ∃ order order' : DirectedGraph → DirectedGraph, IsOrder order ∧ IsOrder order' ∧
    Returns (gcCycle nd order [['d']] { count := true } {} fs) ["count: 2".toList] ∧
    Returns (gcCycle nd order' [['d']] { count := true } {} fs) ["count: 1".toList] := by
  have hload := load_sample nd [.AddEdge 1 2, .AddEdge 2 1, .AddEdge 2 3, .AddEdge 3 4, .AddEdge 4 3]
  have hm : ∀ (g : DirectedGraph), Mono (GcCycle.main g { count := true } {}) := by
    intro g
    refine Mono.bind (Mono.bind (Mono.collect (fun s => ?_) _) fun _ => Mono.ret _) fun _ => Mono.ret _
    refine Mono.loop (fun s => ?_) s
    refine Mono.bind (mono_cycle_next g s) fun r => ?_
    rcases r with _ | ⟨x, s'⟩
    · exact Mono.ret _
    · dsimp only
      split <;> exact Mono.ret _
  refine ⟨_, id, fun g => ⟨g.edgeMap.reverse⟩, fun _ => .refl _, fun g => (List.reverse_perm _).symm, gcCycle_of hload ?_, gcCycle_of hload ?_⟩
  · exact (hm _).returns (n := 10) (by decide +kernel)
  · exact (hm _).returns (n := 10) (by decide +kernel)

example (nd : Char → Bool) : let g := GraphCommand.applyCommands [.AddEdge 1 2, .AddEdge 2 3, .AddEdge 3 2, .AddEdge 3 1] .new
    loadGraph nd [['d']] (sampleFS "AddEdge 1 2\nAddEdge 2 3\nAddEdge 3 2\nAddEdge 3 1\n".toList) = .done (.ok g) ∧
    GcCycle.main g { all := true } {} 30 = .done ["[1, 2, 3]".toList, "[2, 3]".toList] ∧
    GcCycle.main g { hamiltonian := true } {} 30 = .done ["hamiltonian: [1, 2, 3]".toList] ∧ StronglyConnected g := by
  refine ⟨load_sample nd [.AddEdge 1 2, .AddEdge 2 3, .AddEdge 3 2, .AddEdge 3 1], by decide +kernel, by decide +kernel, ?_⟩
  have h12 : Adj (GraphCommand.applyCommands [.AddEdge 1 2, .AddEdge 2 3, .AddEdge 3 2, .AddEdge 3 1] .new) 1 2 := by unfold Adj; decide
  have h23 : Adj (GraphCommand.applyCommands [.AddEdge 1 2, .AddEdge 2 3, .AddEdge 3 2, .AddEdge 3 1] .new) 2 3 := by unfold Adj; decide
  have h31 : Adj (GraphCommand.applyCommands [.AddEdge 1 2, .AddEdge 2 3, .AddEdge 3 2, .AddEdge 3 1] .new) 3 1 := by unfold Adj; decide
  have key : ∀ v, DirectedGraph.containsVertex (GraphCommand.applyCommands [.AddEdge 1 2, .AddEdge 2 3, .AddEdge 3 2, .AddEdge 3 1] .new) v = true →
      v = 1 ∨ v = 2 ∨ v = 3 := by
    intro v hv
    have e : DirectedGraph.vertices (GraphCommand.applyCommands [.AddEdge 1 2, .AddEdge 2 3, .AddEdge 3 2, .AddEdge 3 1] .new) = [1, 2, 3] := by decide
    have := mem_vertices.2 hv
    rw [e] at this
    simpa using this
  intro u v hu hv
  have to1 : Reach (GraphCommand.applyCommands [.AddEdge 1 2, .AddEdge 2 3, .AddEdge 3 2, .AddEdge 3 1] .new) u 1 := by
    rcases key u hu with rfl | rfl | rfl
    · exact .refl
    · exact .head h23 (.single h31)
    · exact .single h31
  refine to1.trans ?_
  rcases key v hv with rfl | rfl | rfl
  · exact .refl
  · exact .single h12
  · exact .head h12 (.single h23)

/-! ### C67, the printed text -/

/-- C67 for graphs without self-loops: the text of gc-desc gives the numbers of vertices and edges and the extreme ids in decimal notation.
Missing: edges of graphs with self-loops, see `C67_counterexample`. -/
theorem C67_printed_partial (nd : Char → Bool) (path : Text) (root : FPath) (fs : FS) (g : DirectedGraph)
    (h : loadGraph nd root fs = .done (.ok g)) (hl : LoopFree g) (hv : g.vertices.length < 2 ^ 64) (he : g.edges.length < 2 ^ 64) :
    ∃ d v e lo hi, gcDesc nd root fs = .done d ∧ descText path d = "Path: ".toList ++ path ++ "\nVertices: ".toList ++ v ++ "\nEdges: ".toList ++ e ++
        "\nMin vertex id: ".toList ++ lo ++ "\nMax vertex id: ".toList ++ hi ++ ['\n'] ∧
      Decimal v g.vertices.length ∧ Decimal e g.edges.length ∧
      ((∀ x, g.containsVertex x = false) → lo = ['-'] ∧ hi = ['-']) ∧
      ((∃ x, g.containsVertex x = true) → ∃ a b : VertexId, Decimal lo a.id.toNat ∧ Decimal hi b.id.toNat ∧ g.containsVertex a = true ∧
        g.containsVertex b = true ∧ ∀ x, g.containsVertex x = true → a.id ≤ x.id ∧ x.id ≤ b.id) := by
  obtain ⟨d, h1, h2, h3, h4, h5, h6, h7⟩ := C67_desc_partial nd root fs g h
  refine ⟨d, _, _, _, _, h1, rfl, ?_, ?_, ?_, ?_⟩
  · rw [h2]; exact decimal_showNat hv
  · rw [h3 hl]; exact decimal_showNat he
  · intro hx
    rw [h4.2 hx, h5.2 hx]
    exact ⟨rfl, rfl⟩
  · rintro ⟨x, hx⟩
    have hn : ¬ ∀ v, g.containsVertex v = false := fun h => by rw [h x] at hx; cases hx
    cases h8 : d.minId with
    | none => exact absurd (h4.1 h8) hn
    | some a =>
      cases h9 : d.maxId with
      | none => exact absurd (h5.1 h9) hn
      | some b =>
        obtain ⟨k1, k2⟩ := h6 a h8
        obtain ⟨k3, k4⟩ := h7 b h9
        exact ⟨⟨a⟩, ⟨b⟩, decimal_showFuel a.toNat_lt, decimal_showFuel b.toNat_lt, k1, k3, fun x hx => ⟨k2 x hx, k4 x hx⟩⟩

/-- C67, every stored graph: the text gives as number of edges that of the edges between different vertices plus half the number of the
self-loops, rounded down. -/
theorem C67_printed_exact (nd : Char → Bool) (path : Text) (root : FPath) (fs : FS) (g : DirectedGraph)
    (h : loadGraph nd root fs = .done (.ok g)) (he : g.edges.length < 2 ^ 64) :
    ∃ d v e lo hi, gcDesc nd root fs = .done d ∧ descText path d = "Path: ".toList ++ path ++ "\nVertices: ".toList ++ v ++ "\nEdges: ".toList ++ e ++
        "\nMin vertex id: ".toList ++ lo ++ "\nMax vertex id: ".toList ++ hi ++ ['\n'] ∧
      Decimal e ((g.edges.filter (fun e => e.src ≠ e.dst)).length + (g.edges.filter (fun e => e.src = e.dst)).length / 2) := by
  obtain ⟨d, h1, h2⟩ := C67_edges_exact nd root fs g h
  refine ⟨d, _, _, _, _, h1, rfl, ?_⟩
  have h3 := nonloops_length (g := g)
  rw [h2, show ∀ a b : Nat, (2 * a + b) / 2 = a + b / 2 by omega]
  exact decimal_showNat (by omega)

/-- The printed numbers of vertices and edges are 4 and 2 (`C67_printed_partial`); with a self-loop, 2 and 1 (`C67_printed_exact`). -/
example (nd : Char → Bool) :
    (∃ d v e lo hi, gcDesc nd [['d']] (sampleFS (Format.Gcmd.commandsText exOrdered)) = .done d ∧
      descText ['d'] d = "Path: ".toList ++ ['d'] ++ "\nVertices: ".toList ++ v ++ "\nEdges: ".toList ++ e ++
        "\nMin vertex id: ".toList ++ lo ++ "\nMax vertex id: ".toList ++ hi ++ ['\n'] ∧ Decimal v 4 ∧ Decimal e 2) ∧
    ∃ d v e lo hi, gcDesc nd [['d']] (sampleFS (Format.Gcmd.commandsText [.AddEdge 1 2, .AddEdge 2 2])) = .done d ∧
      descText ['d'] d = "Path: ".toList ++ ['d'] ++ "\nVertices: ".toList ++ v ++ "\nEdges: ".toList ++ e ++
        "\nMin vertex id: ".toList ++ lo ++ "\nMax vertex id: ".toList ++ hi ++ ['\n'] ∧ Decimal e 1 := by
  obtain ⟨d, v, e, lo, hi, h1, h2, h3, h4, _⟩ := C67_printed_partial nd ['d'] _ _ _ (load_sample nd exOrdered)
    (loopFree_graphOf (by decide)) (by decide) (by decide)
  exact ⟨⟨d, v, e, lo, hi, h1, h2, h3, h4⟩,
    C67_printed_exact nd ['d'] _ _ _ (load_sample nd [.AddEdge 1 2, .AddEdge 2 2]) (by decide)⟩

example : descText "d".toList ⟨3, 1, some 3, some 12⟩ =
    "Path: d\nVertices: 3\nEdges: 1\nMin vertex id: 3\nMax vertex id: 12\n".toList := by decide

end GC
