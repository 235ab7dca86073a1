/-
Walks, cycles and flows of a graph and of one that contains it.
-/
import Verif.Spec.Larger
import Verif.Props.Seeds
namespace GC
open DirectedGraph

namespace Larger
variable {g g' : DirectedGraph}

theorem adj (h : Larger g g') {u v : VertexId} (ha : Adj g u v) : Adj g' u v := h.edges _ ha

theorem reach (h : Larger g g') {u v : VertexId} (hr : Reach g u v) : Reach g' u v :=
  Relation.ReflTransGen.mono (fun _ _ => h.adj) _ _ hr

theorem trans (h : Larger g g') {u v : VertexId} (hr : Relation.TransGen (Adj g) u v) : Relation.TransGen (Adj g') u v :=
  Relation.TransGen.mono (fun _ _ => h.adj) _ _ hr

theorem chain (h : Larger g g') {l : List VertexId} (hl : l.IsChain (Adj g)) : l.IsChain (Adj g') := hl.imp fun _ _ => h.adj

theorem walk (h : Larger g g') {u v : VertexId} {l : List VertexId} (hl : WalkFromTo g u v l) : WalkFromTo g' u v l :=
  ⟨h.chain hl.1, hl.2.1, hl.2.2⟩

theorem simplePath (h : Larger g g') {u : VertexId} {l : List VertexId} (hl : SimplePathFrom g u l) : SimplePathFrom g' u l :=
  ⟨h.chain hl.1, hl.2.1, hl.2.2⟩

theorem isCycle (h : Larger g g') {l : List VertexId} (hl : IsCycle g l) : IsCycle g' l := ⟨hl.1, hl.2.1, h.chain hl.2.2⟩

theorem acyclic (h : Larger g g') (ha : Acyclic g') : Acyclic g := fun v hv => ha v (h.trans hv)

theorem loopFree (h : Larger g g') (ha : LoopFree g') : LoopFree g := fun v hv => ha v (h.adj hv)

theorem negativeCycle (h : Larger g g') {w : Edge → Int} {s : VertexId} : NegativeCycle g w s → NegativeCycle g' w s := by
  rintro ⟨v, c, h1, h2, h3⟩
  exact ⟨v, c, h.reach h1, h.walk h2, h3⟩

theorem vertexCount (h : Larger g g') (hg : Built g) : g.vertexCount ≤ g'.vertexCount := by
  have := List.Nodup.length_le_of_subset hg.wf.nodup_vertices (l₂ := g'.vertices) fun v hv => mem_vertices.2 (h.vertices v (mem_vertices.1 hv))
  simpa [DirectedGraph.vertexCount, DirectedGraph.vertices, HMap.keys] using this

theorem smallWeights (h : Larger g g') (hg : Built g) {w : Edge → Int} (hs : SmallWeights g' w) : SmallWeights g w := by
  intro e he
  have h1 := hs e (h.edges e he)
  have h2 := h.vertexCount hg
  have h3 : |w e| * (g.vertexCount : Int) ≤ |w e| * (g'.vertexCount : Int) := by
    apply mul_le_mul_of_nonneg_left _ (abs_nonneg _)
    exact_mod_cast h2
  omega

/-- A flow through the smaller graph as one through the larger. -/
theorem flows (h : Larger g g') (hg : Built g) (hg' : Built g') (f : Edge → Nat) (v : VertexId) :
    outFlow g' (fun e => if g.containsEdge e = true then f e else 0) v = outFlow g f v ∧
    inFlow g' (fun e => if g.containsEdge e = true then f e else 0) v = inFlow g f v := by
  classical
  have e1 : g.edges.toFinset ⊆ g'.edges.toFinset := by
    intro e he
    rw [List.mem_toFinset, hg.wf.mem_edges] at he
    rw [List.mem_toFinset, hg'.wf.mem_edges]
    exact h.edges e he
  constructor
  · unfold outFlow
    rw [Finset.sum_filter, Finset.sum_filter]
    refine (Finset.sum_subset e1 ?_).symm.trans (Finset.sum_congr rfl ?_)
    · intro e _ hne
      rw [List.mem_toFinset, hg.wf.mem_edges] at hne
      simp [hne]
    · intro e he
      rw [List.mem_toFinset, hg.wf.mem_edges] at he
      simp [he]
  · unfold inFlow
    rw [Finset.sum_filter, Finset.sum_filter]
    refine (Finset.sum_subset e1 ?_).symm.trans (Finset.sum_congr rfl ?_)
    · intro e _ hne
      rw [List.mem_toFinset, hg.wf.mem_edges] at hne
      simp [hne]
    · intro e he
      rw [List.mem_toFinset, hg.wf.mem_edges] at he
      simp [he]

theorem feasible (h : Larger g g') (hg : Built g) (hg' : Built g') {cap cap' : Edge → UInt64}
    (hc : ∀ e, g.containsEdge e = true → (cap e).toNat ≤ (cap' e).toNat) {s t : VertexId} {f : Edge → Nat} (hf : Feasible g cap s t f) :
    Feasible g' cap' s t (fun e => if g.containsEdge e = true then f e else 0) := by
  classical
  refine ⟨fun e _ => ?_, fun v _ h1 h2 => ?_⟩
  · dsimp only
    split
    · rename_i he
      exact (hf.1 e he).trans (hc e he)
    · omega
  · rw [(h.flows hg hg' f v).1, (h.flows hg hg' f v).2]
    by_cases hv : g.containsVertex v = true
    · exact hf.2 v hv h1 h2
    · unfold outFlow inFlow
      rw [Finset.sum_filter, Finset.sum_filter]
      refine Finset.sum_congr rfl fun e he => ?_
      rw [List.mem_toFinset, hg.wf.mem_edges] at he
      rw [if_neg, if_neg]
      · rintro rfl
        exact hv (hg.wf.src_mem he)
      · rintro rfl
        exact hv (hg.wf.dst_mem he)

theorem isMaxFlowValue (h : Larger g g') (hg : Built g) (hg' : Built g') {cap cap' : Edge → UInt64}
    (hc : ∀ e, g.containsEdge e = true → (cap e).toNat ≤ (cap' e).toNat) {s t : VertexId} {n n' : Nat} (hm : IsMaxFlowValue g cap s t n)
    (hm' : IsMaxFlowValue g' cap' s t n') : n ≤ n' := by
  obtain ⟨⟨f, h1, h2⟩, _⟩ := hm
  have := hm'.2 _ (h.feasible hg hg' hc h1)
  unfold netOut at this h2
  rw [(h.flows hg hg' f s).1, (h.flows hg hg' f s).2] at this
  omega

end Larger

namespace MoreEdges
variable {g g' : DirectedGraph}

theorem vertices (h : MoreEdges g g') (v : VertexId) : g'.containsVertex v = g.containsVertex v :=
  Bool.eq_iff_iff.2 ⟨h.2 v, h.1.vertices v⟩

theorem hamiltonianPath (h : MoreEdges g g') {l : List VertexId} (hl : HamiltonianPath g l) : HamiltonianPath g' l :=
  ⟨h.1.chain hl.1, hl.2.1, fun v => by rw [h.vertices]; exact hl.2.2 v⟩

theorem hamiltonianCycle (h : MoreEdges g g') {l : List VertexId} (hl : HamiltonianCycle g l) : HamiltonianCycle g' l :=
  ⟨h.1.isCycle hl.1, fun v hv => hl.2 v (h.2 v hv)⟩

end MoreEdges
end GC
