/- Programs that look at a graph only through its outbound edges; files that load to graphs with the same outbound edges. -/
import Verif.Proofs.Order
import Verif.Proofs.Main
import Verif.Proofs.History
import Verif.Model.ShortestPath
import Verif.Props.Store
namespace GC
open HMap DirectedGraph Text Store Args

/-! ### Congruence in the outbound edges -/

section Congr
variable {g g' : DirectedGraph} (ho : ∀ v, g.outboundEdges v = g'.outboundEdges v)
include ho

theorem outs_congr (v : VertexId) : g.outs v = g'.outs v := by
  unfold DirectedGraph.outs
  rw [ho]

theorem dfs_next_congr : DepthFirstIter.next g = DepthFirstIter.next g' := by
  funext s
  unfold DepthFirstIter.next
  simp only [outs_congr ho]

theorem dfsPath_next_congr : DepthFirstPathIter.next g = DepthFirstPathIter.next g' := by
  funext s
  unfold DepthFirstPathIter.next
  simp only [outs_congr ho]

theorem bfs_next_congr : BreadthFirstIter.next g = BreadthFirstIter.next g' := by
  funext s
  unfold BreadthFirstIter.next
  simp only [outs_congr ho]

theorem bfsPath_next_congr : BreadthFirstPathIter.next g = BreadthFirstPathIter.next g' := by
  funext s
  unfold BreadthFirstPathIter.next
  simp only [outs_congr ho]

theorem spfa_congr (w : ShortestPath.WeightFn) (s : VertexId) : ShortestPath.spfa g w s = ShortestPath.spfa g' w s := by
  unfold ShortestPath.spfa
  congr 1
  funext st
  unfold ShortestPath.spfaStep
  simp only [ho]

theorem best_next_congr (H : ScoredHeap) (f : ScoreFn) (hf : ∀ p, f g p = f g' p) :
    BestFirstIter.next (H := H) g f = BestFirstIter.next g' f := by
  have hv : BestFirstIter.visit (H := H) g f = BestFirstIter.visit g' f := by
    funext wp s v
    unfold BestFirstIter.visit
    rw [hf]
  funext s
  unfold BestFirstIter.next
  simp only [outs_congr ho, hv]

theorem constrained_next_congr (H : ScoredHeap) (f : ScoreFn) (hf : ∀ p, f g p = f g' p) (cs : List Constraint) :
    ConstrainedBestFirstIter.next (H := H) g f cs = ConstrainedBestFirstIter.next g' f cs := by
  have hv : ConstrainedBestFirstIter.visit (H := H) g f cs = ConstrainedBestFirstIter.visit g' f cs := by
    funext wp s v
    unfold ConstrainedBestFirstIter.visit
    rw [hf]
  funext s
  unfold ConstrainedBestFirstIter.next
  simp only [outs_congr ho, hv]

theorem gcShortPath_congr (H : ScoredHeap) (s e : VertexId) : AStar.gcShortPath H g s e = AStar.gcShortPath H g' s e := by
  unfold AStar.gcShortPath AStar.shortestPath
  rw [best_next_congr ho H _ fun _ => rfl]
  rfl

theorem gcCsp_congr (H : ScoredHeap) (s e : VertexId) (cs : List Constraint) : AStar.gcCsp H g s e cs = AStar.gcCsp H g' s e cs := by
  unfold AStar.gcCsp AStar.constrainedShortestPath
  rw [constrained_next_congr ho H _ fun _ => rfl]
  rfl

end Congr

/-! ### Outbound edges and commands -/

theorem outbound_insertionOrder {cs : List GraphCommand} {g : DirectedGraph} (h : Evolves cs g) (v : VertexId) :
    g.outboundEdges v = (insertionOrder cs).filter fun e => e.src = v := by
  rw [outboundEdges_inc, inc_insertionOrder h, List.filter_filter]
  apply List.filter_congr
  intro e _
  by_cases he : e.src = v <;> simp [he, Edge.Touches]

theorem evolves_applyCommands (cs : List GraphCommand) : Evolves cs (GraphCommand.applyCommands cs .new) := by
  suffices ∀ ds g, Evolves ds g → Evolves (ds ++ cs) (GraphCommand.applyCommands cs g) by
    simpa using this [] .new .new
  unfold GraphCommand.applyCommands
  induction cs with
  | nil => intro ds g h; simpa using h
  | cons c cs ih =>
    intro ds g h
    have := ih (ds ++ [c]) _ (h.apply c)
    simpa using this

theorem outbound_asCommands {g : DirectedGraph} (h : WF g) (v : VertexId) :
    (GraphCommand.applyCommands (GraphCommand.asCommands g) .new).outboundEdges v = g.outboundEdges v := by
  rw [outbound_insertionOrder (evolves_applyCommands _), insertionOrder_asCommands h, edges_filter_src h]

theorem outbound_order {g : DirectedGraph} (h : WF g) {order : DirectedGraph → DirectedGraph} (ho : IsOrder order) (v : VertexId) :
    (order g).outboundEdges v = g.outboundEdges v := by
  rw [outboundEdges_inc, outboundEdges_inc, show inc (order g) v = inc g v from inc_perm h (ho g) v]

theorem filter_insertionStep {l m : List Edge} (h : ∀ v, l.filter (fun e => e.src = v) = m.filter fun e => e.src = v) (c : GraphCommand)
    (v : VertexId) : (insertionStep l c).filter (fun e => e.src = v) = (insertionStep m c).filter fun e => e.src = v := by
  have hmem : ∀ e : Edge, e ∈ l ↔ e ∈ m := by
    intro e
    have : e ∈ l.filter (fun x => x.src = e.src) ↔ e ∈ m.filter (fun x => x.src = e.src) := by rw [h]
    simpa using this
  have comm : ∀ p : Edge → Bool, (l.filter p).filter (fun e => e.src = v) = (m.filter p).filter fun e => e.src = v := by
    intro p
    have : ∀ k : List Edge, (k.filter p).filter (fun e => e.src = v) = (k.filter fun e => e.src = v).filter p := by
      intro k
      rw [List.filter_filter, List.filter_filter]
      congr 1
      funext e
      exact Bool.and_comm _ _
    rw [this, this, h]
  cases c with
  | AddVertex u => exact h v
  | RemoveEdge a b => exact comm _
  | RemoveVertex u => exact comm _
  | AddEdge a b =>
    dsimp only [insertionStep]
    by_cases hin : (⟨a, b⟩ : Edge) ∈ l
    · rw [if_pos hin, if_pos ((hmem _).1 hin)]
      exact h v
    · rw [if_neg hin, if_neg (fun hc => hin ((hmem _).2 hc)), List.filter_append, List.filter_append, h]

theorem outbound_applyCommands {g g' : DirectedGraph} (h : Built g) (h' : Built g') (ho : ∀ v, g.outboundEdges v = g'.outboundEdges v)
    (cs : List GraphCommand) (v : VertexId) :
    (GraphCommand.applyCommands cs g).outboundEdges v = (GraphCommand.applyCommands cs g').outboundEdges v := by
  unfold GraphCommand.applyCommands
  induction cs generalizing g g' with
  | nil => exact ho v
  | cons c cs ih =>
    refine ih (h.applyTo c) (h'.applyTo c) fun v => ?_
    obtain ⟨xs, hx⟩ := h
    obtain ⟨ys, hy⟩ := h'
    rw [outbound_insertionOrder (hx.apply c), outbound_insertionOrder (hy.apply c), insertionOrder_append, insertionOrder_append]
    refine filter_insertionStep (fun u => ?_) c v
    rw [← outbound_insertionOrder hx, ← outbound_insertionOrder hy, ho]

theorem gcmd_read_save {nd : Char → Bool} {g g' : DirectedGraph} (h : Format.Gcmd.read nd (Format.Gcmd.save g) = .done (.ok g')) :
    g' = GraphCommand.applyCommands (GraphCommand.asCommands g) .new := by
  have h2 : Format.Gcmd.read nd (Format.Gcmd.save g) = .done (.ok (GraphCommand.applyCommands (GraphCommand.asCommands g) .new)) := by
    apply read_of_readsAs
    rw [gcmd_save_eq, lines_commandsText]
    exact readsAs_commandLines nd _
  rw [h] at h2
  cases h2
  rfl

theorem tgf_read_save {nd : Char → Bool} {g g' : DirectedGraph} (h : Format.Tgf.read nd (Format.Tgf.save g) = .done (.ok g')) :
    g' = GraphCommand.applyCommands (GraphCommand.asCommands g) .new := by
  have h2 : Format.Tgf.read nd (Format.Tgf.save g) = .done (.ok (GraphCommand.applyCommands (GraphCommand.asCommands g) .new)) := by
    apply read_of_readsAs
    have := tgf_readsAs nd (GraphCommand.asCommands g) (by
      intro c hc
      rw [asCommands_eq, List.mem_append, List.mem_map, List.mem_map] at hc
      rcases hc with ⟨v, _, rfl⟩ | ⟨e, _, rfl⟩
      · exact .inl ⟨v, rfl⟩
      · exact .inr ⟨_, _, rfl⟩)
    rw [tgf_save_eq, lines_flatMap this.2]
    exact this.1
  rw [h] at h2
  cases h2
  rfl

/-! ### Directories that load to graphs with the same outbound edges -/

/-- The directory holds a command file that loads to `g`. -/
def HoldsGraph (nd : Char → Bool) (root : FPath) (fs : FS) (g : DirectedGraph) : Prop :=
  Ready root fs ∧ ∃ c, Content root fs c ∧ NewlineTerminated c ∧ Format.Gcmd.read nd c = .done (.ok g)

/-- Two directories that both hold no graph, or graphs with the same vertices and the same outbound edges in the same order. -/
def Alike (nd : Char → Bool) (root : FPath) (fs fs' : FS) : Prop :=
  (Fresh root fs ∧ Fresh root fs') ∨
  ∃ g g', HoldsGraph nd root fs g ∧ HoldsGraph nd root fs' g' ∧ ∀ v, g.outboundEdges v = g'.outboundEdges v

variable {nd : Char → Bool} {root : FPath} {fs fs' : FS}

theorem HoldsGraph.load {g : DirectedGraph} (h : HoldsGraph nd root fs g) : loadGraph nd root fs = .done (.ok g) := by
  obtain ⟨_, c, hc, _, hr⟩ := h
  exact (loadGraph_content hc).2 hr

theorem HoldsGraph.built {g : DirectedGraph} (h : HoldsGraph nd root fs g) : Built g := (loadGraph_built h.load).1

theorem Alike.refl {S : Option SetGraph} (h : Holds nd root fs S) : Alike nd root fs fs := by
  cases S with
  | none => exact .inl ⟨h, h⟩
  | some G =>
    obtain ⟨hr, c, g, hc, ht, hg, _⟩ := h
    exact .inr ⟨g, g, ⟨hr, c, hc, ht, hg⟩, ⟨hr, c, hc, ht, hg⟩, fun _ => rfl⟩

theorem Alike.symm (h : Alike nd root fs fs') : Alike nd root fs' fs := by
  rcases h with h | ⟨g, g', h1, h2, h3⟩
  · exact .inl ⟨h.2, h.1⟩
  · exact .inr ⟨g', g, h2, h1, fun v => (h3 v).symm⟩

theorem HoldsGraph.apply {g : DirectedGraph} (h : HoldsGraph nd root fs g) (cs : List GraphCommand) :
    HoldsGraph nd root (applyGraphCommands root cs fs).1 (GraphCommand.applyCommands cs g) := by
  obtain ⟨hr, c, hc, ht, hg⟩ := h
  obtain ⟨fs', h1, h2, h3, _⟩ := applyGraphCommands_ready hr hc cs
  rw [h1]
  exact ⟨h3, _, h2, newlineTerminated_append ht (terminated_commandsText cs), C14_append_applies nd c g cs ht hg⟩

theorem Alike.apply (h : Alike nd root fs fs') (cs : List GraphCommand) :
    Alike nd root (applyGraphCommands root cs fs).1 (applyGraphCommands root cs fs').1 := by
  rcases h with h | ⟨g, g', h1, h2, h3⟩
  · exact .inl ⟨(apply_fresh h.1 cs).1, (apply_fresh h.2 cs).1⟩
  · exact .inr ⟨_, _, h1.apply cs, h2.apply cs, outbound_applyCommands h1.built h2.built h3 cs⟩

/-- The results of two runs are alike: the directories are, and the exit codes are the same. -/
def AlikeExit (nd : Char → Bool) (root : FPath) (r r' : FS × Exit) : Prop := Alike nd root r.1 r'.1 ∧ r.2 = r'.2

theorem AlikeExit.andThen {r r' : FS × Exit} {f : FS → FS × Exit} (h : AlikeExit nd root r r')
    (hf : ∀ fs fs', Alike nd root fs fs' → AlikeExit nd root (f fs) (f fs')) : AlikeExit nd root (andThen r f) (andThen r' f) := by
  obtain ⟨a, b⟩ := r
  obtain ⟨a', b'⟩ := r'
  obtain ⟨h1, h2⟩ := h
  cases h2
  cases b with
  | success => exact hf _ _ h1
  | panic => exact ⟨h1, rfl⟩

theorem Alike.mutateStep (h : Alike nd root fs fs') (vals : Option (List Text)) (mk : List VertexId → Run (List GraphCommand)) :
    AlikeExit nd root (mutateStep root vals mk fs) (mutateStep root vals mk fs') := by
  unfold Store.mutateStep
  cases vals with
  | none => exact ⟨h, rfl⟩
  | some l =>
    dsimp only
    generalize (Run.unwrap (parseVertexIdList l)).bind mk = r
    cases r with
    | running => exact ⟨h, rfl⟩
    | panicked => exact ⟨h, rfl⟩
    | done cs => exact ⟨h.apply cs, rfl⟩

theorem Alike.add (h : Alike nd root fs fs') (a : AddArgs) : AlikeExit nd root (gcAdd root a fs) (gcAdd root a fs') := by
  unfold gcAdd
  refine (h.mutateStep _ _).andThen fun fs fs' h => ?_
  refine (h.mutateStep _ _).andThen fun fs fs' h => ?_
  refine (h.mutateStep _ _).andThen fun fs fs' h => ?_
  refine (h.mutateStep _ _).andThen fun fs fs' h => ?_
  refine (h.mutateStep _ _).andThen fun fs fs' h => ?_
  exact h.mutateStep _ _

theorem Alike.delete (h : Alike nd root fs fs') (v e : Option (List Text)) :
    AlikeExit nd root (gcDelete root v e fs) (gcDelete root v e fs') := by
  unfold gcDelete
  refine (h.mutateStep _ _).andThen fun fs fs' h => ?_
  exact h.mutateStep _ _

/-- Saving a graph. -/
theorem holdsGraph_save {g : DirectedGraph} (hb : Built g) {order : DirectedGraph → DirectedGraph} (ho : IsOrder order) (hr : Ready root fs) :
    ∃ fs' g', saveGraphAsCommands root (order g) fs = (fs', .ok ()) ∧ HoldsGraph nd root fs' g' ∧
      ∀ v, g'.outboundEdges v = g.outboundEdges v := by
  obtain ⟨fs', h1, h2, h3, _⟩ := save_ready hr (order g)
  have hb' : Built (order g) := hb.reorder (ho g)
  obtain ⟨g', h4, _, _⟩ := C09_gcmd_round_trip nd (order g) hb'
  refine ⟨fs', g', h1, ⟨h2, _, h3, (C14_saved_files_terminated _).1, h4⟩, fun v => ?_⟩
  rw [gcmd_read_save h4, outbound_asCommands hb'.wf, outbound_order hb.wf ho]

theorem Alike.build_left (h : Alike nd root fs fs') {order : DirectedGraph → DirectedGraph} (ho : IsOrder order) :
    Alike nd root (gcBuild nd order root fs).1 fs' := by
  rcases h with h | ⟨g, g', h1, h2, h3⟩
  · have : gcBuild nd order root fs = (fs, .panic) := by
      apply C17_build_fails_safely
      intro g hg
      have h' : loadGraph nd root fs = _ := holds_stored (S := none) h.1
      rw [hg] at h'
      cases h'
    rw [this]
    exact .inl h
  · obtain ⟨fs1, g1, e1, e2, e3⟩ := holdsGraph_save (nd := nd) h1.built ho h1.1
    unfold gcBuild
    rw [h1.load]
    dsimp only
    rw [e1]
    exact .inr ⟨g1, g', e2, h2, fun v => (e3 v).trans (h3 v)⟩

theorem Alike.clean (h : Alike nd root fs fs') (force : Bool) (answer : Text) :
    Alike nd root (gcClean root force answer fs).1 (gcClean root force answer fs').1 := by
  unfold gcClean
  split
  · exact h
  · rcases h with h | ⟨g, g', h1, h2, _⟩
    · obtain ⟨_, e1, e2, _⟩ := clean_fresh h.1
      obtain ⟨_, e3, e4, _⟩ := clean_fresh h.2
      rw [e1, e3]
      exact .inl ⟨e2, e4⟩
    · obtain ⟨_, e1, e2, _⟩ := clean_ready h1.1
      obtain ⟨_, e3, e4, _⟩ := clean_ready h2.1
      rw [e1, e3]
      exact .inl ⟨e2, e4⟩

theorem Alike.init (h : Alike nd root fs fs') : Alike nd root (gcInit root fs).1 (gcInit root fs').1 := by
  unfold gcInit
  rcases h with h | ⟨g, g', h1, h2, h3⟩
  · obtain ⟨_, e1, e2, e3, _⟩ := init_fresh h.1
    obtain ⟨_, f1, f2, f3, _⟩ := init_fresh h.2
    rw [e1, f1]
    exact .inr ⟨.new, .new, ⟨e2, [], e3, .inl rfl, rfl⟩, ⟨f2, [], f3, .inl rfl, rfl⟩, fun _ => rfl⟩
  · rw [init_ready h1.1, init_ready h2.1]
    exact .inr ⟨g, g', h1, h2, h3⟩

theorem replaceGraph_ready {g : DirectedGraph} (hb : Built g) {order : DirectedGraph → DirectedGraph} (ho : IsOrder order) (hr : Ready root fs) :
    ∃ g', HoldsGraph nd root (Random.replaceGraph root (order g) fs).1 g' ∧ ∀ v, g'.outboundEdges v = g.outboundEdges v := by
  unfold Random.replaceGraph
  obtain ⟨fs1, h1, h2, _⟩ := clean_ready hr
  rw [h1]
  obtain ⟨fs2, i1, i2, _⟩ := init_fresh h2
  simp only [expectOk, andThen]
  rw [i1]
  obtain ⟨fs3, g', s1, s2, s3⟩ := holdsGraph_save (nd := nd) hb ho i2
  dsimp only
  rw [s1]
  exact ⟨g', s2, s3⟩

theorem Alike.random (h : Alike nd root fs fs') {g : DirectedGraph} (hb : Built g) {order order' : DirectedGraph → DirectedGraph}
    (ho : IsOrder order) (ho' : IsOrder order') (force : Bool) (answer : Text) :
    Alike nd root (Random.finish order root force answer fs (some g)).1 (Random.finish order' root force answer fs' (some g)).1 := by
  unfold Random.finish
  dsimp only
  split
  · exact h
  · rcases h with h | ⟨g1, g1', h1, h2, _⟩
    · unfold Random.replaceGraph
      obtain ⟨_, e1, e2, _⟩ := clean_fresh h.1
      obtain ⟨_, e3, e4, _⟩ := clean_fresh h.2
      rw [e1, e3]
      exact .inl ⟨e2, e4⟩
    · obtain ⟨g2, a1, a2⟩ := replaceGraph_ready (nd := nd) hb ho h1.1
      obtain ⟨g3, b1, b2⟩ := replaceGraph_ready (nd := nd) hb ho' h2.1
      exact .inr ⟨g2, g3, a1, b1, fun v => (a2 v).trans (b2 v).symm⟩

theorem session_alike {xs ys : List Cmd} (hx : ∀ c ∈ xs, c.Proper) (hy : ∀ c ∈ ys, c.Proper) (hs : SameUpToBuilds xs ys)
    (h : Alike nd root fs fs') : Alike nd root (session nd root xs fs).1 (session nd root ys fs').1 := by
  induction hs generalizing fs fs' with
  | nil => exact h
  | @same xs ys cmd _ ih =>
    refine ih (fun c hc => hx c (by simp [hc])) (fun c hc => hy c (by simp [hc])) ?_
    have hp := hx cmd (by simp)
    cases cmd with
    | init => exact h.init
    | add a => exact (h.add a).1
    | delete v e => exact (h.delete v e).1
    | build order => exact ((h.build_left hp).symm.build_left hp).symm
    | clean force answer => exact h.clean force answer
    | random g order force answer => exact h.random hp.1 hp.2 hp.2 force answer
  | @random xs ys g order order' force answer _ ih =>
    refine ih (fun c hc => hx c (by simp [hc])) (fun c hc => hy c (by simp [hc])) ?_
    have hp := hx (.random g order force answer) (by simp)
    have hq := hy (.random g order' force answer) (by simp)
    exact h.random hp.1 hp.2 hq.2 force answer
  | @build_left xs ys order _ ih =>
    exact ih (fun c hc => hx c (by simp [hc])) hy (h.build_left (hx (.build order) (by simp)))
  | @build_right xs ys order _ ih =>
    exact ih hx (fun c hc => hy c (by simp [hc])) (h.symm.build_left (hy (.build order) (by simp))).symm

/-! ### Queries -/

theorem loadedGraph_alike {α : Type} {order order' : DirectedGraph → DirectedGraph} (ho : IsOrder order) (ho' : IsOrder order')
    (h : Alike nd root fs fs') {f : DirectedGraph → Prog α}
    (hf : ∀ g g', (∀ v, g.outboundEdges v = g'.outboundEdges v) → f g = f g') :
    Prog.bind (Main.loadedGraph nd order root fs) f = Prog.bind (Main.loadedGraph nd order' root fs') f := by
  rcases h with ⟨h, h'⟩ | ⟨g, g', h1, h2, h3⟩
  · have e : loadGraph nd root fs = _ := holds_stored (S := none) h
    have e' : loadGraph nd root fs' = _ := holds_stored (S := none) h'
    unfold Main.loadedGraph
    rw [e, e']
    rfl
  · unfold Main.loadedGraph
    rw [h1.load, h2.load]
    exact hf _ _ fun v => by rw [outbound_order h1.built.wf ho, outbound_order h2.built.wf ho', h3]

theorem short_path_alike (H : ScoredHeap) {order order' : DirectedGraph → DirectedGraph} (ho : IsOrder order) (ho' : IsOrder order')
    (h : Alike nd root fs fs') (start end_ : Text) :
    Main.gcShortPath H nd order root start end_ fs = Main.gcShortPath H nd order' root start end_ fs' := by
  unfold Main.gcShortPath
  congr 1
  funext s
  congr 1
  funext e
  exact loadedGraph_alike ho ho' h fun g g' hg => by rw [gcShortPath_congr hg H]

theorem csp_alike (H : ScoredHeap) {order order' : DirectedGraph → DirectedGraph} (ho : IsOrder order) (ho' : IsOrder order')
    (h : Alike nd root fs fs') (start end_ : Text) (a : CspArgs) :
    Main.gcCsp H nd order root start end_ a fs = Main.gcCsp H nd order' root start end_ a fs' := by
  unfold Main.gcCsp
  congr 1
  funext s
  congr 1
  funext e
  exact loadedGraph_alike ho ho' h fun g g' hg => by rw [gcCsp_congr hg H]

end GC
