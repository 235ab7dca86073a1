/-
Properties C89-C90: equality of graphs, and what depends on the command history only and not on the iteration order of the hash map.
-/
import Verif.Proofs.Alike
import Verif.Props.Seeds
import Verif.Props.History
import Verif.Props.Main
namespace GC
open DirectedGraph HMap Text Store Args

/-! ### C89: `==` -/

/-- C89: `==` on graphs is an equivalence relation. -/
theorem C89_equivalence (a b c : DirectedGraph) (ha : Built a) (hb : Built b) (hc : Built c) :
    a.eq a = true ∧ (a.eq b = true → b.eq a = true) ∧ (a.eq b = true → b.eq c = true → a.eq c = true) := by
  rw [eq_iff_get? ha.wf ha.wf, eq_iff_get? ha.wf hb.wf, eq_iff_get? hb.wf ha.wf, eq_iff_get? hb.wf hc.wf, eq_iff_get? ha.wf hc.wf]
  exact ⟨fun _ => rfl, fun h v => (h v).symm, fun h h' v => (h v).trans (h' v)⟩

/-- C89: graphs that are `==` have the same vertices and edges, and every vertex has the same edges in the same order. -/
theorem C89_equal_graphs (a b : DirectedGraph) (ha : Built a) (hb : Built b) (h : a.eq b = true) :
    SameGraph a b ∧ (∀ v, a.outboundEdges v = b.outboundEdges v) ∧ ∀ v, a.inboundEdges v = b.inboundEdges v := by
  have h := get?_eq_iff_inc.1 ((eq_iff_get? ha.wf hb.wf).1 h)
  refine ⟨⟨h.1, fun e => ?_⟩, fun v => ?_, fun v => ?_⟩
  · rw [Bool.eq_iff_iff, ha.wf.containsEdge_iff, hb.wf.containsEdge_iff, h.2]
  · rw [outboundEdges_inc, outboundEdges_inc, h.2]
  · rw [inboundEdges_inc, inboundEdges_inc, h.2]

/-- C89, exactly: two graphs are `==` iff they have the same vertices and, around every vertex, the same edges were inserted in the same
order. -/
theorem C89_exact (cs ds : List GraphCommand) (a b : DirectedGraph) (ha : Evolves cs a) (hb : Evolves ds b) :
    a.eq b = true ↔ (∀ v, a.containsVertex v = b.containsVertex v) ∧
      ∀ v, (insertionOrder cs).filter (fun e => e.Touches v) = (insertionOrder ds).filter (fun e => e.Touches v) := by
  rw [eq_iff_get? ha.wf hb.wf, get?_eq_iff_inc]
  apply and_congr_right
  intro _
  apply forall_congr'
  intro v
  rw [inc_insertionOrder ha, inc_insertionOrder hb]

/-- C89 (partial): graphs with the same history are `==`, whatever the iteration orders of their hash maps. Missing: graphs with the same
vertices and edges but another history, see `C89_counterexample`. -/
theorem C89_same_history_partial (cs : List GraphCommand) (a b : DirectedGraph) (ha : Evolves cs a) (hb : Evolves cs b) : a.eq b = true := by
  refine (C89_exact cs cs a b ha hb).2 ⟨fun v => ?_, fun _ => rfl⟩
  have := C01_history_refines_set_semantics cs a ha
  rw [Bool.eq_iff_iff, this.1, (C01_history_refines_set_semantics cs b hb).1]

/-- C89: the claim that graphs with the same vertices and edges are `==` is false: it depends on the order in which edges were added. It even
fails for a graph and its copy read back from the file it was saved to. -/
theorem C89_counterexample (nd : Char → Bool) :
    (∃ a b, Built a ∧ Built b ∧ SameGraph a b ∧ a.eq b = false) ∧
    ∃ a b, Built a ∧ Format.Gcmd.read nd (Format.Gcmd.save a) = .done (.ok b) ∧ a.eq b = false := by
  constructor
  · exact ⟨_, _, Built.new.applyCommands [.AddEdge 1 2, .AddEdge 1 3], Built.new.applyCommands [.AddEdge 1 3, .AddEdge 1 2],
      sameGraph_of_lists (Built.new.applyCommands _) (Built.new.applyCommands _) (by decide) (by decide), by decide⟩
  · refine ⟨_, GraphCommand.applyCommands (GraphCommand.asCommands
      (GraphCommand.applyCommands [.AddVertex 2, .AddEdge 3 1, .AddEdge 2 1] .new)) .new,
      Built.new.applyCommands [.AddVertex 2, .AddEdge 3 1, .AddEdge 2 1], ?_, by decide⟩
    apply read_of_readsAs
    rw [gcmd_save_eq, lines_commandsText]
    exact readsAs_commandLines nd _

/-- `C89_exact`, `C89_same_history_partial`, `C89_equivalence` and `C89_equal_graphs` for the same two edges, in two iteration orders of the
hash map. -/
example : Evolves [.AddEdge 1 2, .AddEdge 3 1] (graphOf [.AddEdge 1 2, .AddEdge 3 1]) ∧
    SameGraph (graphOf [.AddEdge 1 2, .AddEdge 3 1]) ⟨[(3, [⟨3, 1⟩]), (2, [⟨1, 2⟩]), (1, [⟨1, 2⟩, ⟨3, 1⟩])]⟩ := by
  have h : Evolves [.AddEdge 1 2, .AddEdge 3 1] (graphOf [.AddEdge 1 2, .AddEdge 3 1]) :=
    (Evolves.new.apply (.AddEdge 1 2)).apply (.AddEdge 3 1)
  have h' : Evolves [.AddEdge 1 2, .AddEdge 3 1] ⟨[(3, [⟨3, 1⟩]), (2, [⟨1, 2⟩]), (1, [⟨1, 2⟩, ⟨3, 1⟩])]⟩ := h.reorder (by decide)
  have b : Built (graphOf [.AddEdge 1 2, .AddEdge 3 1]) := graphOf_built _
  have b' : Built ⟨[(3, [⟨3, 1⟩]), (2, [⟨1, 2⟩]), (1, [⟨1, 2⟩, ⟨3, 1⟩])]⟩ := b.reorder (by decide)
  have he := C89_same_history_partial _ _ _ h h'
  have := (C89_exact _ _ _ _ h h').1 he
  have := (C89_equivalence _ _ _ b b' b).2.1 he
  exact ⟨h, (C89_equal_graphs _ _ b b' he).1⟩

example : Evolves [.AddEdge 1 2, .AddEdge 3 1] (GraphCommand.applyCommands [.AddEdge 1 2, .AddEdge 3 1] .new) ∧
    Evolves [.AddEdge 1 2, .AddEdge 3 1] ⟨[(3, [⟨3, 1⟩]), (2, [⟨1, 2⟩]), (1, [⟨1, 2⟩, ⟨3, 1⟩])]⟩ ∧
    (GraphCommand.applyCommands [.AddEdge 1 2, .AddEdge 3 1] .new).eq ⟨[(3, [⟨3, 1⟩]), (2, [⟨1, 2⟩]), (1, [⟨1, 2⟩, ⟨3, 1⟩])]⟩ = true := by
  have h : Evolves [.AddEdge 1 2, .AddEdge 3 1] (GraphCommand.applyCommands [.AddEdge 1 2, .AddEdge 3 1] .new) :=
    (Evolves.new.apply (.AddEdge 1 2)).apply (.AddEdge 3 1)
  exact ⟨h, h.reorder (by decide), by decide⟩

/-! ### C90: reproducible answers -/

/-- C90: neighbours are listed in the order in which the edges were inserted, whatever the iteration order of the hash map. -/
theorem C90_neighbour_order (cs : List GraphCommand) (g : DirectedGraph) (h : Evolves cs g) (v : VertexId) :
    g.outboundEdges v = (insertionOrder cs).filter (fun e => e.src = v) ∧
    g.inboundEdges v = (insertionOrder cs).filter (fun e => e.dst = v) := by
  rw [outboundEdges_inc, inboundEdges_inc, inc_insertionOrder h, List.filter_filter, List.filter_filter]
  constructor
  · apply List.filter_congr
    intro e _
    by_cases he : e.src = v <;> simp [he, Edge.Touches]
  · apply List.filter_congr
    intro e _
    by_cases he : e.dst = v <;> simp [he, Edge.Touches]

/-- C90: saving a graph and reading it back, in both formats, keeps the order of the outbound edges of every vertex. -/
theorem C90_save_load (nd : Char → Bool) (g : DirectedGraph) (h : Built g) :
    ∃ g', Format.Gcmd.read nd (Format.Gcmd.save g) = .done (.ok g') ∧ Format.Tgf.read nd (Format.Tgf.save g) = .done (.ok g') ∧
      SameGraph g' g ∧ ∀ v, g'.outboundEdges v = g.outboundEdges v := by
  obtain ⟨g1, h1, _, h2⟩ := C09_gcmd_round_trip nd g h
  obtain ⟨g2, h3, _⟩ := C10_tgf_round_trip nd g h
  have e1 : g1 = GraphCommand.applyCommands (GraphCommand.asCommands g) .new := gcmd_read_save h1
  have e2 : g2 = GraphCommand.applyCommands (GraphCommand.asCommands g) .new := tgf_read_save h3
  refine ⟨g1, h1, by rw [h3, e1, e2], h2, fun v => ?_⟩
  rw [e1]
  exact outbound_asCommands h.wf v

/-- C90: for graphs with the same history, the traversals from a vertex yield the same items in the same order (or stop in the same way),
whatever the iteration orders of the hash maps. The same holds for `spfa` and for the searches of gc-short-path and gc-csp, for every
(deterministic) heap. Equality of programs means: the same outcome, panic or divergence. -/
theorem C90_traversals (cs : List GraphCommand) (g g' : DirectedGraph) (h : Evolves cs g) (h' : Evolves cs g') (s : VertexId) :
    Prog.collect (DepthFirstIter.next g) (DepthFirstIter.from_ s) = Prog.collect (DepthFirstIter.next g') (DepthFirstIter.from_ s) ∧
    Prog.collect (DepthFirstPathIter.next g) (DepthFirstPathIter.from_ s) =
      Prog.collect (DepthFirstPathIter.next g') (DepthFirstPathIter.from_ s) ∧
    Prog.collect (BreadthFirstIter.next g) (BreadthFirstIter.from_ s) = Prog.collect (BreadthFirstIter.next g') (BreadthFirstIter.from_ s) ∧
    Prog.collect (BreadthFirstPathIter.next g) (BreadthFirstPathIter.from_ s) =
      Prog.collect (BreadthFirstPathIter.next g') (BreadthFirstPathIter.from_ s) ∧
    (∀ w, ShortestPath.spfa g w s = ShortestPath.spfa g' w s) ∧
    (∀ H e, AStar.gcShortPath H g s e = AStar.gcShortPath H g' s e) ∧
    ∀ H e constraints, AStar.gcCsp H g s e constraints = AStar.gcCsp H g' s e constraints := by
  have ho : ∀ v, g.outboundEdges v = g'.outboundEdges v := fun v => by
    rw [(C90_neighbour_order cs g h v).1, (C90_neighbour_order cs g' h' v).1]
  exact ⟨by rw [dfs_next_congr ho], by rw [dfsPath_next_congr ho], by rw [bfs_next_congr ho], by rw [bfsPath_next_congr ho],
    fun w => spfa_congr ho w s, fun H e => gcShortPath_congr ho H s e, fun H e cs => gcCsp_congr ho H s e cs⟩

/-- C90: what gc-short-path and gc-csp do and print at the end of a session depends on the commands only: not on the iteration orders of the
hash maps (when a graph is saved or when it is searched), and not on whether gc-build was run in between. -/
theorem C90_sessions (H : ScoredHeap) (nd : Char → Bool) (order order' : DirectedGraph → DirectedGraph) (ho : IsOrder order)
    (ho' : IsOrder order') (root : FPath) (xs ys : List Cmd) (hx : ∀ c ∈ xs, c.Proper) (hy : ∀ c ∈ ys, c.Proper)
    (hs : SameUpToBuilds xs ys) (fs : FS) (S : Option SetGraph) (h : Holds nd root fs S) (start end_ : Text) (a : CspArgs) :
    Main.gcShortPath H nd order root start end_ (session nd root xs fs).1 =
      Main.gcShortPath H nd order' root start end_ (session nd root ys fs).1 ∧
    Main.gcCsp H nd order root start end_ a (session nd root xs fs).1 = Main.gcCsp H nd order' root start end_ a (session nd root ys fs).1 := by
  have hal := session_alike hx hy hs (Alike.refl h)
  exact ⟨short_path_alike H ho ho' hal start end_, csp_alike H ho ho' hal start end_ a⟩

/-- Example sessions: two shortest paths from 1 to 4, with and without a gc-build that writes the vertices in the opposite order. -/
def exReverse (g : DirectedGraph) : DirectedGraph := ⟨g.edgeMap.reverse⟩

theorem exReverse_isOrder : IsOrder exReverse := fun g => (List.reverse_perm g.edgeMap).symm

def exSession : List Cmd :=
  [.init, .add { edge := some ["1".toList, "3".toList, "1".toList, "2".toList] },
    .add { edge := some ["2".toList, "4".toList, "3".toList, "4".toList] }]

def exSessionBuilds : List Cmd :=
  [.init, .add { edge := some ["1".toList, "3".toList, "1".toList, "2".toList] }, .build exReverse,
    .add { edge := some ["2".toList, "4".toList, "3".toList, "4".toList] }, .build exReverse]

example : SameUpToBuilds exSession exSessionBuilds := .same _ (.same _ (.build_right _ (.same _ (.build_right _ .nil))))

example : (∀ c ∈ exSession, c.Proper) ∧ ∀ c ∈ exSessionBuilds, c.Proper := by
  simp [exSession, exSessionBuilds, Store.Cmd.Proper, exReverse_isOrder]

/-- `C90_sessions` for these two sessions. -/
example (H : ScoredHeap) (nd : Char → Bool) := C90_sessions H nd id exReverse isOrder_id exReverse_isOrder [['d']] exSession exSessionBuilds
  (by simp [exSession, Store.Cmd.Proper]) (by simp [exSessionBuilds, Store.Cmd.Proper, exReverse_isOrder])
  (.same _ (.same _ (.build_right _ (.same _ (.build_right _ .nil))))) emptyFS none emptyFS_fresh "1".toList "4".toList {}

/-- The files differ, the answers do not. -/
example : (session (fun _ => false) [['d']] exSession emptyFS).1 (commandPath [['d']]) ≠
      (session (fun _ => false) [['d']] exSessionBuilds emptyFS).1 (commandPath [['d']]) ∧
    Main.gcShortPath exHeap (fun _ => false) id [['d']] ['1'] ['4'] (session (fun _ => false) [['d']] exSession emptyFS).1 100 =
      Main.gcShortPath exHeap (fun _ => false) exReverse [['d']] ['1'] ['4'] (session (fun _ => false) [['d']] exSessionBuilds emptyFS).1 100 ∧
    Main.gcShortPath exHeap (fun _ => false) id [['d']] ['1'] ['4'] (session (fun _ => false) [['d']] exSession emptyFS).1 100 ≠ .running := by
  decide +kernel

end GC
