/- C87: what the queries answer after gc-random. -/
import Verif.Props.Random
import Verif.Props.Main
import Verif.Props.Seeds

namespace GC
namespace Random
open DirectedGraph Store Text Main

/-- C87: after a successful gc-random (with the user's agreement, on an initialised graph), gc-topo-sort prints the vertices of the generated
graph in an order in which all its edges go forward, gc-cycle finds no cycle, and gc-desc reports its numbers of vertices and edges; there are
at least as many edges as asked for. The three programs may see the hash map in different orders. -/
theorem C87_queries (nd : Char → Bool) (rng : Nat → UInt64) (order order₁ order₂ order₃ : DirectedGraph → DirectedGraph) (ho : IsOrder order)
    (ho₁ : IsOrder order₁) (ho₂ : IsOrder order₂) (ho₃ : IsOrder order₃) (root : FPath)
    (force : Bool) (answer vertexCount : Text) (edgeCount : Option Text) (fs : FS) (vc ec : Nat) (g : DirectedGraph) (hw : fs.WF)
    (hg : fs (rootPath root) = some .dir) (hl : fs (lockPath root) ≠ some .dir)
    (ha : force = true ∨ Args.confirmationYesNo answer = true)
    (hv : parseUsize vertexCount = some vc) (h3 : vc * 3 < 2 ^ 64)
    (he : (∃ t, edgeCount = some t ∧ parseUsize t = some ec) ∨ ((∀ t, edgeCount = some t → parseUsize t = none) ∧ ec = vc * 3))
    (hr : Returns (createsRandomDag rng vc ec) (some g)) :
    ∃ fs', Returns (gcRandom rng order root force answer vertexCount edgeCount fs) (fs', .success) ∧
      (∃ l ids, Returns (gcTopoSort nd order₁ root fs') ("Topological order: ".toList ++ ids ++ ['\n']) ∧ TopologicalOrder g l ∧
        PrintedIds ' ' l ids) ∧
      Returns (gcCycle nd order₂ root { all := true } {} fs') [] ∧
      Returns (gcCycle nd order₃ root { count := true } {} fs') ["count: 0".toList] ∧
      ∃ d, gcDesc nd root fs' = .done d ∧ d.vertices = g.vertices.length ∧ d.edges = g.edges.length ∧ ec ≤ d.edges := by
  obtain ⟨fs', g', h1, h2, h4, _⟩ := C60_command nd rng order ho root force answer vertexCount edgeCount fs vc ec g hw hg hl ha hv h3 he hr
  obtain ⟨_, e, hb, hac, _⟩ := C60_dag rng vc ec (by omega) _ hr
  cases e
  have hb' := (loadGraph_built h2).1
  have hac' : Acyclic g' := by unfold Acyclic; rw [h4.adj]; exact hac
  have hpv : g'.vertices.length = g.vertices.length :=
    ((List.perm_ext_iff_of_nodup hb'.wf.nodup_vertices hb.wf.nodup_vertices).2 fun v => by rw [mem_vertices, mem_vertices, h4.1]).length_eq
  have hpe : g'.edges.length = g.edges.length :=
    ((List.perm_ext_iff_of_nodup hb'.wf.nodup_edges hb.wf.nodup_edges).2 fun v => by rw [hb'.wf.mem_edges, hb.wf.mem_edges, h4.2]).length_eq
  obtain ⟨l, ids, k1, k2, k3⟩ := C71_prints_order nd order₁ ho₁ root fs' g' h2 hac'
  obtain ⟨d, d1, d2, d3, _⟩ := C67_desc_partial nd root fs' g' h2
  have hde := d3 fun v hv => hac' v (.single hv)
  refine ⟨fs', h1, ⟨l, ids, k1, ?_, k3⟩, (C74_acyclic nd order₂ ho₂ root fs' g' h2 hac').1, (C74_acyclic nd order₃ ho₃ root fs' g' h2 hac').2,
    d, d1, d2.trans hpv, hde.trans hpe, ?_⟩
  · exact ⟨k2.1, fun v => by rw [k2.2.1, h4.1], fun u v huv => k2.2.2 u v (by rw [h4.adj]; exact huv)⟩
  · rw [hde, hpe]
    exact (C60_edge_count rng vc ec (by omega) g hr).1

/-- The hypotheses can be met: `gc-random 4 2`, confirmed with `y`, on an initialised graph. -/
example (nd : Char → Bool) : ∃ fs', Returns (gcRandom exRng id [['d']] false ['y', '\n'] ['4'] (some ['2']) (sampleFS [])) (fs', .success) ∧
    ∃ d, gcDesc nd [['d']] fs' = .done d ∧ d.edges = 3 := by
  have hr : Returns (createsRandomDag exRng 4 2) (some (drawRound exRng 4 ⟨.new, 0⟩).graph) := by
    refine ⟨2, fun m hm => ?_⟩
    obtain ⟨m, rfl⟩ : ∃ j, m = j + 2 := ⟨m - 2, by omega⟩
    rfl
  have hid : IsOrder id := fun _ => List.Perm.refl _
  obtain ⟨fs', h1, _, _, _, d, h2, _, h3, _⟩ := C87_queries nd exRng id id id id hid hid hid hid [['d']] false ['y', '\n'] ['4'] (some ['2'])
    (sampleFS []) 4 2 _ (sampleFS_wf []) rfl (by decide) (.inr (by decide)) (by decide) (by decide) (.inl ⟨_, rfl, by decide⟩) hr
  exact ⟨fs', h1, d, h2, by rw [h3]; decide⟩

end Random
end GC
