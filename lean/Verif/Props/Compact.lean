/-
C127: what gc-build makes of the command file.
-/
import Verif.Spec.Compact
import Verif.Proofs.Compact
import Verif.Props.Store
namespace GC
namespace Compact
open Store Text Format

/-! ### C127 -/

/-- C127: after gc-build the command file has one line for each vertex, then one line for each edge, and nothing else: no comments, no removals,
no repetitions. -/
theorem C127_lines (nd : Char → Bool) (order : DirectedGraph → DirectedGraph) (ho : IsOrder order) (root : FPath) (fs fs' : FS) (g : DirectedGraph)
    (hg : loadGraph nd root fs = .done (.ok g)) (h : gcBuild nd order root fs = (fs', .success)) :
    ∃ c' vs es, Content root fs' c' ∧ NewlineTerminated c' ∧ Lists g vs es ∧
      lines c' = vs.map (fun v => "AddVertex ".toList ++ showId v) ++ es.map (fun e => "AddEdge ".toList ++ showId e.src ++ [' '] ++ showId e.dst) := by
  obtain ⟨c, g1, _, h1, hw, hw', hs, hc'⟩ := gcBuild_content ho h
  rw [hg] at h1
  cases h1
  refine ⟨_, (order g).vertices, (order g).edges, hc', ?_, ⟨hw'.nodup_vertices, hw'.nodup_edges, fun v => ?_, fun e => ?_⟩, ?_⟩
  · rw [gcmd_save_eq]; exact terminated_commandsText _
  · rw [mem_vertices, hs.1]
  · rw [hw'.mem_edges, hs.2]
  · rw [gcmd_save_eq, lines_commandsText, asCommands_eq, List.map_append, List.map_map, List.map_map]
    have e1 : "AddVertex ".toList = Gcmd.kwAddVertex := by decide +kernel
    have e2 : "AddEdge ".toList = Gcmd.kwAddEdge := by decide +kernel
    rw [e1, e2]
    rfl

/-- C127: the size of the command file after gc-build depends on the vertices and edges of the graph only: two directories with the same graph,
whatever their histories and the iteration orders of the hash maps, end up with files of the same size. -/
theorem C127_size (nd nd' : Char → Bool) (order order' : DirectedGraph → DirectedGraph) (ho : IsOrder order) (ho' : IsOrder order')
    (root root' : FPath) (fs1 fs1' fs2 fs2' : FS) (g1 g2 : DirectedGraph) (h1 : loadGraph nd root fs1 = .done (.ok g1))
    (h2 : loadGraph nd' root' fs2 = .done (.ok g2)) (hs : SameGraph g1 g2) (b1 : gcBuild nd order root fs1 = (fs1', .success))
    (b2 : gcBuild nd' order' root' fs2 = (fs2', .success)) :
    ∃ c1 c2, Content root fs1' c1 ∧ Content root' fs2' c2 ∧ c1.length = c2.length := by
  obtain ⟨_, k1, _, e1, w1, w1', s1, hc1⟩ := gcBuild_content ho b1
  obtain ⟨_, k2, _, e2, w2, w2', s2, hc2⟩ := gcBuild_content ho' b2
  rw [h1] at e1
  rw [h2] at e2
  cases e1
  cases e2
  refine ⟨_, _, hc1, hc2, save_same w1' w2' ?_⟩
  rw [sameGraph_iff] at *
  rw [s1, s2, hs]

/-- C127: a second gc-build does not change the size of the command file. -/
theorem C127_again (nd : Char → Bool) (order order' : DirectedGraph → DirectedGraph) (ho : IsOrder order) (ho' : IsOrder order') (root : FPath)
    (fs fs' fs'' : FS) (h1 : gcBuild nd order root fs = (fs', .success)) (h2 : gcBuild nd order' root fs' = (fs'', .success)) :
    ∃ c' c'', Content root fs' c' ∧ Content root fs'' c'' ∧ c''.length = c'.length := by
  obtain ⟨_, g, _, hg, _, _, _, _⟩ := gcBuild_content ho h1
  obtain ⟨fs1, g', e, hg', hs, _⟩ := C17_build_preserves_partial nd order ho root fs g hg
  rw [h1] at e
  cases e
  obtain ⟨a, b, ha, hb, hl⟩ := C127_size nd nd order' order ho' ho root root fs' fs'' fs fs' g' g hg' hg hs h2 h1
  exact ⟨b, a, hb, ha, hl⟩

/-- C127: gc-build makes the command file at most three times as large (the last line counted with a line feed, which it may lack), and not larger
if every vertex has an AddVertex line of its own. -/
theorem C127_bound (nd : Char → Bool) (order : DirectedGraph → DirectedGraph) (ho : IsOrder order) (root : FPath) (fs fs' : FS) (c : Text)
    (g : DirectedGraph) (hc : Content root fs c) (hg : loadGraph nd root fs = .done (.ok g)) (h : gcBuild nd order root fs = (fs', .success)) :
    ∃ c', Content root fs' c' ∧ c'.length ≤ 3 * (c.length + 1) ∧ (NewlineTerminated c → c'.length ≤ 3 * c.length) ∧
      (NamesAll g c → c'.length ≤ c.length + 1 ∧ (NewlineTerminated c → c'.length ≤ c.length)) := by
  obtain ⟨_, g1, _, h1, hw, hw', hs, hc'⟩ := gcBuild_content ho h
  rw [hg] at h1
  cases h1
  obtain ⟨_, c1, hc1, hr⟩ := loadGraph_built hg
  have e : some (Node.file c1) = some (Node.file c) := hc1.symm.trans hc
  cases e
  obtain ⟨cs, hcs, rfl⟩ := gcmd_read_ok hr
  obtain ⟨a1, a2⟩ := Compact.loaded_named hcs
  obtain ⟨b1, b2⟩ := lines_sizes c
  rw [← save_same hw' hw hs] at a1 a2
  refine ⟨_, hc', by omega, fun ht => ?_, fun hn => ?_⟩
  · have := b2 ht
    omega
  · have := a2 fun v hv => by
      obtain ⟨l, hl, hl'⟩ := hn v hv
      exact reads_mem hcs hl hl'
    exact ⟨by omega, fun ht => by have := b2 ht; omega⟩

/-- C127: the factor three cannot be improved: one line of twelve characters becomes three lines of thirty-six. -/
theorem C127_sharp (nd : Char → Bool) :
    ∃ fs', Content [['d']] (sampleFS "AddEdge 1 2\n".toList) "AddEdge 1 2\n".toList ∧
      gcBuild nd id [['d']] (sampleFS "AddEdge 1 2\n".toList) = (fs', .success) ∧
      Content [['d']] fs' "AddVertex 1\nAddVertex 2\nAddEdge 1 2\n".toList ∧
      "AddVertex 1\nAddVertex 2\nAddEdge 1 2\n".toList.length = 3 * "AddEdge 1 2\n".toList.length := by
  have e : "AddEdge 1 2\n".toList = Gcmd.commandsText [.AddEdge 1 2] := by decide +kernel
  obtain ⟨fs', _, hb, _⟩ := C17_build_preserves_partial nd id (fun _ => .refl _) [['d']] _ _ (load_sample nd [.AddEdge 1 2])
  refine ⟨fs', rfl, e ▸ hb, ?_, by decide +kernel⟩
  obtain ⟨_, g, _, hg, _, _, _, hc⟩ := gcBuild_content (fun _ => .refl _) hb
  rw [load_sample] at hg
  cases hg
  have e2 : Gcmd.save (GraphCommand.applyCommands [.AddEdge 1 2] .new) = "AddVertex 1\nAddVertex 2\nAddEdge 1 2\n".toList := by decide +kernel
  rw [← e2]
  exact hc

/-- A history with removals and repetitions, in which every vertex that is left has a line of its own. -/
def exHistory : List GraphCommand := [.AddVertex 1, .AddVertex 20, .AddEdge 1 20, .AddEdge 1 20, .AddEdge 20 3, .RemoveVertex 3, .AddEdge 20 1]

/-- gc-build makes the file of `exHistory` smaller, a second one keeps its size (`C127_lines`, `C127_bound` with its last part, `C127_again`). -/
example (nd : Char → Bool) : ∃ fs' fs'' c' c'', gcBuild nd id [['d']] (sampleFS (Gcmd.commandsText exHistory)) = (fs', .success) ∧
    gcBuild nd id [['d']] fs' = (fs'', .success) ∧ Content [['d']] fs' c' ∧ Content [['d']] fs'' c'' ∧ c''.length = c'.length ∧
    c'.length < (Gcmd.commandsText exHistory).length ∧ NamesAll (GraphCommand.applyCommands exHistory .new) (Gcmd.commandsText exHistory) := by
  have ho : IsOrder id := fun _ => .refl _
  obtain ⟨fs', g', hb, hg', _⟩ := C17_build_preserves_partial nd id ho [['d']] _ _ (load_sample nd exHistory)
  obtain ⟨fs'', g'', hb', _⟩ := C17_build_preserves_partial nd id ho [['d']] _ _ hg'
  obtain ⟨c', c'', h1, h2, h3⟩ := C127_again nd id id ho ho [['d']] _ _ _ hb hb'
  refine ⟨fs', fs'', c', c'', hb, hb', h1, h2, h3, ?_, ?_⟩
  · obtain ⟨_, g, _, hg, _, _, _, hc⟩ := gcBuild_content ho hb
    rw [load_sample] at hg
    cases hg
    have e : some (Node.file c') = some (Node.file _) := h1.symm.trans hc
    cases e
    decide +kernel
  · intro v hv
    have : v ∈ (GraphCommand.applyCommands exHistory .new).vertices := mem_vertices.2 hv
    have e : (GraphCommand.applyCommands exHistory .new).vertices = [1, 20] := by decide +kernel
    rw [e] at this
    refine ⟨Gcmd.commandIntoLine (.AddVertex v), ?_, gcmd_syntax_commandIntoLine _⟩
    rw [lines_commandsText]
    refine List.mem_map_of_mem ?_
    simp only [List.mem_cons, List.not_mem_nil, or_false] at this
    rcases this with rfl | rfl <;> simp [exHistory]

/-- Two different histories of one graph: gc-build gives files of the same size (`C127_size`). -/
example (nd : Char → Bool) : ∃ fs1 fs2 c1 c2, gcBuild nd id [['d']] (sampleFS (Gcmd.commandsText exHistory)) = (fs1, .success) ∧
    gcBuild nd id [['d']] (sampleFS (Gcmd.commandsText [.AddEdge 20 1, .AddEdge 1 20])) = (fs2, .success) ∧
    Content [['d']] fs1 c1 ∧ Content [['d']] fs2 c2 ∧ c1.length = c2.length := by
  have ho : IsOrder id := fun _ => .refl _
  obtain ⟨fs1, _, h1, _⟩ := C17_build_preserves_partial nd id ho [['d']] _ _ (load_sample nd exHistory)
  obtain ⟨fs2, _, h2, _⟩ := C17_build_preserves_partial nd id ho [['d']] _ _ (load_sample nd [.AddEdge 20 1, .AddEdge 1 20])
  obtain ⟨c1, c2, h⟩ := C127_size nd nd id id ho ho _ _ _ _ _ _ _ _ (load_sample nd exHistory) (load_sample nd [.AddEdge 20 1, .AddEdge 1 20])
    (by
      have hw : ∀ cs, WF (GraphCommand.applyCommands cs .new) := fun cs => (Built.new.applyCommands cs).wf
      have e1 : (GraphCommand.applyCommands exHistory .new).vertices.Perm (GraphCommand.applyCommands [.AddEdge 20 1, .AddEdge 1 20] .new).vertices := by
        decide +kernel
      have e2 : (GraphCommand.applyCommands exHistory .new).edges.Perm (GraphCommand.applyCommands [.AddEdge 20 1, .AddEdge 1 20] .new).edges := by
        decide +kernel
      exact ⟨fun v => by rw [Bool.eq_iff_iff, ← mem_vertices, ← mem_vertices]; exact e1.mem_iff,
        fun e => by rw [Bool.eq_iff_iff, ← (hw _).mem_edges, ← (hw _).mem_edges]; exact e2.mem_iff⟩) h1 h2
  exact ⟨fs1, fs2, c1, c2, h1, h2, h⟩
end Compact
end GC
