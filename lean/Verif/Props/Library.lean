/-
Property C100: the functions of command/src/graph_utils.rs that change the stored graph, for callers of the library.
-/
import Verif.Props.Store
namespace GC
open Text Store

/-- The four ways to change the stored graph. `add_vertex`, `add_edge` and `remove_vertex` are the cases of one item. -/
def LibraryCall (root : FPath) (call : FS → Io Unit) (cs : List GraphCommand) : Prop :=
  (∃ vs, call = addVertices root vs ∧ cs = vs.map .AddVertex) ∨
  (∃ ps, call = addEdges root ps ∧ cs = ps.map fun p => .AddEdge p.1 p.2) ∨
  (∃ vs, call = removeVertices root vs ∧ cs = vs.map .RemoveVertex) ∨
  (∃ ps, call = removeEdges root ps ∧ cs = ps.map fun p => .RemoveEdge p.1 p.2)

theorem LibraryCall.eq {root : FPath} {call : FS → Io Unit} {cs : List GraphCommand} (h : LibraryCall root call cs) :
    call = applyGraphCommands root cs := by
  rcases h with ⟨x, rfl, rfl⟩ | ⟨x, rfl, rfl⟩ | ⟨x, rfl, rfl⟩ | ⟨x, rfl, rfl⟩ <;> rfl

/-- C100: the call succeeds exactly if the lock file can be created and there is a command file; otherwise it reports an error and,
apart from directories that lead to the graph and the lock file, nothing changed. -/
theorem C100_success_iff (root : FPath) (call : FS → Io Unit) (cs : List GraphCommand) (hcall : LibraryCall root call cs) (fs : FS)
    (hw : fs.WF) :
    ((call fs).2 = .ok () ↔ Lockable root fs ∧ ∃ c, Content root fs c) ∧
    ((call fs).2 ≠ .ok () → ∀ q, q ≠ lockPath root → ¬ q <+: root → (call fs).1 q = fs q) ∧
    (Lockable root fs → isLocked root (call fs).1 = false) := by
  rw [hcall.eq]
  by_cases hl : Lockable root fs
  · obtain ⟨fs1, h1, h2, _⟩ := withLock_ok (block := addCommandsTo (commandPath root) cs) hl
    have hcmd : fs1 (commandPath root) = fs (commandPath root) := h1.content (root_prefix_command root)
    by_cases hc : ∃ c, Content root fs c
    · obtain ⟨c, hc⟩ := hc
      have hc' := hc
      unfold Content at hc
      rw [hc] at hcmd
      have hblock : addCommandsTo (commandPath root) cs fs1 =
          (fs1.set (commandPath root) (some (.file (c ++ Format.Gcmd.commandsText cs))), .ok ()) := by
        unfold addCommandsTo openAppend
        rw [hcmd]
        simp only [appendText, hcmd]
      rw [hblock] at h2
      have hlk : FileAt (fs1.set (commandPath root) (some (.file (c ++ Format.Gcmd.commandsText cs)))) (lockPath root) := by
        obtain ⟨d, hd⟩ := h1.1
        exact ⟨d, by rw [FS.set_other _ _ (lock_ne_command root).symm]; exact hd⟩
      have h3 := h2 hlk
      unfold applyGraphCommands
      rw [h3]
      exact ⟨⟨fun _ => ⟨hl, c, hc'⟩, fun _ => rfl⟩, fun h => absurd rfl h, fun _ => by simp [isLocked, FS.set_self]⟩
    · have hblock : ∃ e, addCommandsTo (commandPath root) cs fs1 = (fs1, .error e) := by
        unfold addCommandsTo openAppend
        rw [hcmd]
        cases he : fs (commandPath root) with
        | none => exact ⟨_, rfl⟩
        | some n =>
          cases n with
          | dir => exact ⟨_, rfl⟩
          | file c => exact absurd ⟨c, he⟩ hc
      obtain ⟨e, hblock⟩ := hblock
      rw [hblock] at h2
      have h3 := h2 h1.1
      unfold applyGraphCommands
      rw [h3]
      refine ⟨⟨fun h => (nomatch h), fun h => absurd h.2 hc⟩, fun _ q hq hp => ?_, fun _ => by simp [isLocked, FS.set_self]⟩
      exact (FS.set_other _ _ hq).trans <| h1.2.2 q hq hp
  · obtain ⟨e, he⟩ := C62_no_lock_no_block root (addCommandsTo (commandPath root) cs) fs hw hl
    unfold applyGraphCommands
    rw [he]
    exact ⟨⟨fun h => (nomatch h), fun h => absurd h.1 hl⟩, fun _ _ _ _ => rfl, fun h => absurd h hl⟩

/-- `C100_success_iff` for `remove_edges` over the file of one edge. -/
example := C100_success_iff [['d']] (removeEdges [['d']] [(1, 2)]) [.RemoveEdge 1 2] (.inr (.inr (.inr ⟨[(1, 2)], rfl, rfl⟩)))
  (sampleFS "AddEdge 1 2\n".toList) (sampleFS_wf _)

/-- What a successful call leaves: the old graph changed by the commands in their textbook meaning, and nothing else. -/
theorem library_effect (nd : Char → Bool) {root : FPath} {call : FS → Io Unit} {cs : List GraphCommand} (hcall : LibraryCall root call cs)
    {fs : FS} {c : Text} {g : DirectedGraph} (hr : Ready root fs) (hc : Content root fs c) (ht : NewlineTerminated c)
    (hg : loadGraph nd root fs = .done (.ok g)) :
    (call fs).2 = .ok () ∧ Ready root (call fs).1 ∧ (∀ q, q ≠ lockPath root → q ≠ commandPath root → (call fs).1 q = fs q) ∧
    ∃ g', loadGraph nd root (call fs).1 = .done (.ok g') ∧ g'.toSet = g.toSet.run cs := by
  rw [hcall.eq]
  obtain ⟨fs', h1, h2, h3, _, h5⟩ := applyGraphCommands_ready hr hc cs
  obtain ⟨hb, c0, hc0, hr0⟩ := loadGraph_built hg
  have hcc : c0 = c := by
    unfold Content at hc hc0
    rw [hc] at hc0
    cases hc0
    rfl
  subst hcc
  rw [h1]
  exact ⟨rfl, h3, h5, _, (loadGraph_content h2).2 (C14_append_applies nd c0 g cs ht hr0), toSet_applyCommands hb.wf cs⟩

theorem run_removeVertices (vs : List VertexId) (G : SetGraph) :
    (∀ v, (G.run (vs.map .RemoveVertex)).V v ↔ G.V v ∧ v ∉ vs) ∧
    ∀ e, (G.run (vs.map .RemoveVertex)).E e ↔ G.E e ∧ e.src ∉ vs ∧ e.dst ∉ vs := by
  induction vs generalizing G with
  | nil => simp [SetGraph.run]
  | cons u vs ih =>
    have e : G.run ((u :: vs).map .RemoveVertex) = (G.step (.RemoveVertex u)).run (vs.map .RemoveVertex) := rfl
    rw [e]
    refine ⟨fun v => ?_, fun e => ?_⟩
    · rw [(ih _).1]; simp [SetGraph.step, and_assoc]
    · rw [(ih _).2]
      simp only [SetGraph.step, List.mem_cons, not_or]
      tauto

theorem run_removeEdges (ps : List (VertexId × VertexId)) (G : SetGraph) :
    (∀ v, (G.run (ps.map fun p => .RemoveEdge p.1 p.2)).V v ↔ G.V v) ∧
    ∀ e : Edge, (G.run (ps.map fun p => .RemoveEdge p.1 p.2)).E e ↔ G.E e ∧ (e.src, e.dst) ∉ ps := by
  induction ps generalizing G with
  | nil => simp [SetGraph.run]
  | cons p ps ih =>
    have e : G.run ((p :: ps).map fun p => .RemoveEdge p.1 p.2) =
      (G.step (.RemoveEdge p.1 p.2)).run (ps.map fun p => .RemoveEdge p.1 p.2) := rfl
    rw [e]
    refine ⟨fun v => ?_, fun e => ?_⟩
    · rw [(ih _).1]; simp [SetGraph.step]
    · rw [(ih _).2]
      obtain ⟨x, y⟩ := e
      obtain ⟨a, b⟩ := p
      simp only [SetGraph.step, List.mem_cons, not_or, Prod.mk.injEq, Ne, Edge.mk.injEq]
      tauto

section
variable (nd : Char → Bool) (root : FPath) (fs : FS) (c : Text) (g : DirectedGraph) (hr : Ready root fs) (hc : Content root fs c)
  (ht : NewlineTerminated c) (hg : loadGraph nd root fs = .done (.ok g))
include hr hc ht hg

/-- C100: `add_vertices` on a stored graph adds exactly the given vertices. -/
theorem C100_add_vertices (vs : List VertexId) :
    ∃ fs' g', addVertices root vs fs = (fs', .ok ()) ∧ loadGraph nd root fs' = .done (.ok g') ∧
      (∀ v, g'.containsVertex v = true ↔ g.containsVertex v = true ∨ v ∈ vs) ∧
      (∀ e, g'.containsEdge e = true ↔ g.containsEdge e = true) ∧
      ∀ q, q ≠ lockPath root → q ≠ commandPath root → fs' q = fs q := by
  obtain ⟨h1, _, h3, g', h4, h5⟩ := library_effect nd (.inl ⟨vs, rfl, rfl⟩) hr hc ht hg
  refine ⟨_, g', Prod.ext rfl h1, h4, fun v => ?_, fun e => ?_, h3⟩
  · have := (run_adds (cs := vs.map .AddVertex) (by rintro _ h; obtain ⟨v, _, rfl⟩ := List.mem_map.1 h; exact .inl ⟨v, rfl⟩) g.toSet).2 v
    rw [← h5] at this
    refine this.trans (or_congr Iff.rfl ?_)
    simp
  · have := (run_adds (cs := vs.map .AddVertex) (by rintro _ h; obtain ⟨v, _, rfl⟩ := List.mem_map.1 h; exact .inl ⟨v, rfl⟩) g.toSet).1 e
    rw [← h5] at this
    refine this.trans ?_
    simp only [List.mem_map, reduceCtorEq, and_false, exists_false, or_false]
    exact Iff.rfl

/-- C100: `add_edges` on a stored graph adds exactly the given edges, with their endpoints. -/
theorem C100_add_edges (ps : List (VertexId × VertexId)) :
    ∃ fs' g', addEdges root ps fs = (fs', .ok ()) ∧ loadGraph nd root fs' = .done (.ok g') ∧
      (∀ v, g'.containsVertex v = true ↔ g.containsVertex v = true ∨ ∃ w, (v, w) ∈ ps ∨ (w, v) ∈ ps) ∧
      (∀ e : Edge, g'.containsEdge e = true ↔ g.containsEdge e = true ∨ (e.src, e.dst) ∈ ps) ∧
      ∀ q, q ≠ lockPath root → q ≠ commandPath root → fs' q = fs q := by
  obtain ⟨h1, _, h3, g', h4, h5⟩ := library_effect nd (.inr (.inl ⟨ps, rfl, rfl⟩)) hr hc ht hg
  have hm : ∀ x y, GraphCommand.AddEdge x y ∈ ps.map (fun p => GraphCommand.AddEdge p.1 p.2) ↔ (x, y) ∈ ps := by
    intro x y
    exact mem_edgeCommands
  have ha : OnlyAdds (ps.map fun p => .AddEdge p.1 p.2) := onlyAdds_edgeCommands ps
  refine ⟨_, g', Prod.ext rfl h1, h4, fun v => ?_, fun e => ?_, h3⟩
  · have := (run_adds ha g.toSet).2 v
    rw [← h5] at this
    refine this.trans (or_congr Iff.rfl ?_)
    simp only [hm]
    simp
  · have := (run_adds ha g.toSet).1 e
    rw [← h5, hm] at this
    exact this

/-- C100: `remove_vertices` on a stored graph removes exactly the given vertices and their edges. -/
theorem C100_remove_vertices (vs : List VertexId) :
    ∃ fs' g', removeVertices root vs fs = (fs', .ok ()) ∧ loadGraph nd root fs' = .done (.ok g') ∧
      (∀ v, g'.containsVertex v = true ↔ g.containsVertex v = true ∧ v ∉ vs) ∧
      (∀ e : Edge, g'.containsEdge e = true ↔ g.containsEdge e = true ∧ e.src ∉ vs ∧ e.dst ∉ vs) ∧
      ∀ q, q ≠ lockPath root → q ≠ commandPath root → fs' q = fs q := by
  obtain ⟨h1, _, h3, g', h4, h5⟩ := library_effect nd (.inr (.inr (.inl ⟨vs, rfl, rfl⟩))) hr hc ht hg
  have hrun := run_removeVertices vs g.toSet
  rw [← h5] at hrun
  exact ⟨_, g', Prod.ext rfl h1, h4, hrun.1, hrun.2, h3⟩

/-- C100: `remove_edges` on a stored graph removes exactly the given edges and no vertex. -/
theorem C100_remove_edges (ps : List (VertexId × VertexId)) :
    ∃ fs' g', removeEdges root ps fs = (fs', .ok ()) ∧ loadGraph nd root fs' = .done (.ok g') ∧
      (∀ v, g'.containsVertex v = true ↔ g.containsVertex v = true) ∧
      (∀ e : Edge, g'.containsEdge e = true ↔ g.containsEdge e = true ∧ (e.src, e.dst) ∉ ps) ∧
      ∀ q, q ≠ lockPath root → q ≠ commandPath root → fs' q = fs q := by
  obtain ⟨h1, _, h3, g', h4, h5⟩ := library_effect nd (.inr (.inr (.inr ⟨ps, rfl, rfl⟩))) hr hc ht hg
  have hrun := run_removeEdges ps g.toSet
  rw [← h5] at hrun
  exact ⟨_, g', Prod.ext rfl h1, h4, hrun.1, hrun.2, h3⟩

end

example (nd : Char → Bool) :
    (removeEdges [['d']] [(1, 2)] (addEdges [['d']] [(1, 2), (2, 3)] (sampleFS "AddVertex 9\n".toList)).1).2 = .ok () ∧
    loadGraph nd [['d']] (removeEdges [['d']] [(1, 2)] (addEdges [['d']] [(1, 2), (2, 3)] (sampleFS "AddVertex 9\n".toList)).1).1 =
      .done (.ok (GraphCommand.applyCommands [.AddVertex 9, .AddEdge 1 2, .AddEdge 2 3, .RemoveEdge 1 2] .new)) := ⟨rfl, rfl⟩

/-- A directory without graph: the library reports the error that gc-add ignores (`C65_counterexample`). -/
example : (addVertices [] [1] (fun q => if q = [] then some .dir else none)).2 = .error .notFound := rfl

end GC
