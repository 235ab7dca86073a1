/-
Walks, paths, cycles and flows of a graph whose edges are turned round.
-/
import Verif.Proofs.Renamed
namespace GC
open DirectedGraph

namespace Reversed
variable {g g' : DirectedGraph}

theorem symm (h : Reversed g g') : Reversed g' g := ⟨fun v => (h.vertices v).symm, fun u v => (h.edges v u).symm⟩

theorem adj (h : Reversed g g') (u v : VertexId) : Adj g' v u ↔ Adj g u v := by
  unfold Adj
  rw [h.edges]

theorem adj_eq (h : Reversed g g') : Adj g' = Function.swap (Adj g) := by
  funext a b
  exact propext (h.adj b a)

theorem reach (h : Reversed g g') (u v : VertexId) : Reach g' v u ↔ Reach g u v := by
  unfold Reach
  rw [h.adj_eq, Relation.reflTransGen_swap]

theorem trans (h : Reversed g g') (u v : VertexId) : Relation.TransGen (Adj g') v u ↔ Relation.TransGen (Adj g) u v := by
  rw [h.adj_eq, Relation.transGen_swap]

theorem chain (h : Reversed g g') (l : List VertexId) : l.reverse.IsChain (Adj g') ↔ l.IsChain (Adj g) := by
  rw [List.isChain_reverse]
  simp only [h.adj]

theorem walk (h : Reversed g g') (u v : VertexId) (l : List VertexId) : WalkFromTo g' v u l.reverse ↔ WalkFromTo g u v l := by
  unfold WalkFromTo
  rw [h.chain, List.head?_reverse, List.getLast?_reverse]
  tauto

theorem hamiltonianPath (h : Reversed g g') (l : List VertexId) : HamiltonianPath g' l.reverse ↔ HamiltonianPath g l := by
  unfold HamiltonianPath
  rw [h.chain, List.nodup_reverse]
  simp only [List.mem_reverse, h.vertices]

theorem acyclic (h : Reversed g g') : Acyclic g' ↔ Acyclic g := by
  unfold Acyclic
  simp only [h.trans]

theorem loopFree (h : Reversed g g') : LoopFree g' ↔ LoopFree g := by
  unfold LoopFree
  simp only [h.adj]

theorem strong (h : Reversed g g') : StronglyConnected g' ↔ StronglyConnected g := by
  unfold StronglyConnected
  simp only [h.vertices]
  exact ⟨fun k u v hu hv => (h.reach u v).1 (k v u hv hu), fun k u v hu hv => (h.reach v u).2 (k v u hv hu)⟩

/-- The cycle in the other direction, from the same vertex. -/
def turned : List VertexId → List VertexId
  | [] => []
  | a :: l => a :: l.reverse

theorem turned_turned (l : List VertexId) : turned (turned l) = l := by
  cases l <;> simp [turned]

theorem turned_rotated (l : List VertexId) : turned l ~r l.reverse := by
  cases l with
  | nil => exact List.IsRotated.refl _
  | cons a l =>
    have := List.isRotated_append (l := [a]) (l' := l.reverse)
    simpa [turned] using this

theorem isCycle (h : Reversed g g') (l : List VertexId) : IsCycle g' (turned l) ↔ IsCycle g l := by
  cases l with
  | nil => simp [turned, IsCycle]
  | cons a l =>
    unfold IsCycle
    have e : turned (a :: l) ++ (turned (a :: l)).head?.toList = (a :: l ++ (a :: l).head?.toList).reverse := by simp [turned]
    rw [e, h.chain]
    simp [turned]

theorem hamiltonianCycle (h : Reversed g g') (l : List VertexId) : HamiltonianCycle g' (turned l) ↔ HamiltonianCycle g l := by
  unfold HamiltonianCycle
  rw [h.isCycle]
  have : ∀ v, v ∈ turned l ↔ v ∈ l := fun v => by cases l <;> simp [turned]
  simp only [this, h.vertices]

theorem vertices_perm (h : Reversed g g') (hg : Built g) (hg' : Built g') : g'.vertices.Perm g.vertices := by
  refine (List.perm_ext_iff_of_nodup hg'.wf.nodup_vertices hg.wf.nodup_vertices).2 fun v => ?_
  rw [mem_vertices, mem_vertices, h.vertices]

theorem vertexCount (h : Reversed g g') (hg : Built g) (hg' : Built g') : g'.vertexCount = g.vertexCount := by
  have := (h.vertices_perm hg hg').length_eq
  simpa [DirectedGraph.vertexCount, DirectedGraph.vertices, HMap.keys] using this

/-- The edge turned round. -/
abbrev edge (e : Edge) : Edge := ⟨e.dst, e.src⟩

theorem edge_edge (e : Edge) : edge (edge e) = e := rfl

theorem edge_inj : Function.Injective edge := fun a b hab => by rw [← edge_edge a, hab]

theorem contains (h : Reversed g g') (e : Edge) : g'.containsEdge (edge e) = g.containsEdge e := h.edges _ _

theorem edges_perm (h : Reversed g g') (hg : Built g) (hg' : Built g') : g'.edges.Perm (g.edges.map edge) := by
  refine (List.perm_ext_iff_of_nodup hg'.wf.nodup_edges ((List.nodup_map_iff edge_inj).2 hg.wf.nodup_edges)).2 fun e => ?_
  rw [← edge_edge e, List.mem_map_of_injective edge_inj, hg.wf.mem_edges, hg'.wf.mem_edges]
  exact Bool.eq_iff_iff.1 (h.contains _)

/-! ### Weights -/

theorem walkWeight {w w' : Edge → Int} (hw : ∀ e, w' (edge e) = w e) (l : List VertexId) : GC.walkWeight w' l.reverse = GC.walkWeight w l := by
  induction l with
  | nil => rfl
  | cons a l ih =>
    cases l with
    | nil => rfl
    | cons b l =>
      rw [List.reverse_cons, List.reverse_cons, List.append_assoc, List.singleton_append, walkWeight_split, ← List.reverse_cons, ih]
      have := hw ⟨a, b⟩
      simp only [edge] at this
      simp only [GC.walkWeight, this]
      omega

theorem smallWeights (h : Reversed g g') (hg : Built g) (hg' : Built g') {w w' : Edge → Int} (hw : ∀ e, w' (edge e) = w e)
    (hs : SmallWeights g w) : SmallWeights g' w' := by
  intro e he
  rw [h.vertexCount hg hg', ← edge_edge e, hw]
  exact hs _ (by rw [← h.contains]; exact he)

/-! ### Flows -/

theorem outFlow (h : Reversed g g') (hg : Built g) (hg' : Built g') (f : Edge → Nat) (v : VertexId) :
    GC.outFlow g' f v = GC.inFlow g (fun e => f (edge e)) v := by
  classical
  unfold GC.outFlow GC.inFlow
  have e : g'.edges.toFinset = g.edges.toFinset.image edge := by
    rw [List.toFinset_eq_of_perm _ _ (h.edges_perm hg hg')]
    ext
    simp
  rw [e, Finset.filter_image, Finset.sum_image fun a _ b _ hab => edge_inj hab]

theorem inFlow (h : Reversed g g') (hg : Built g) (hg' : Built g') (f : Edge → Nat) (v : VertexId) :
    GC.inFlow g' f v = GC.outFlow g (fun e => f (edge e)) v := by
  classical
  unfold GC.outFlow GC.inFlow
  have e : g'.edges.toFinset = g.edges.toFinset.image edge := by
    rw [List.toFinset_eq_of_perm _ _ (h.edges_perm hg hg')]
    ext
    simp
  rw [e, Finset.filter_image, Finset.sum_image fun a _ b _ hab => edge_inj hab]

theorem netOut (h : Reversed g g') (hg : Built g) (hg' : Built g') (f : Edge → Nat) (v : VertexId) :
    GC.netOut g' f v = - GC.netOut g (fun e => f (edge e)) v := by
  unfold GC.netOut
  rw [h.outFlow hg hg', h.inFlow hg hg']
  omega

theorem feasible (h : Reversed g g') (hg : Built g) (hg' : Built g') {cap cap' : Edge → UInt64} (hc : ∀ e, cap' (edge e) = cap e)
    {s t : VertexId} {f : Edge → Nat} (hf : Feasible g' cap' t s f) : Feasible g cap s t fun e => f (edge e) := by
  refine ⟨fun e he => ?_, fun v hv h1 h2 => ?_⟩
  · have := hf.1 (edge e) (by rw [h.contains]; exact he)
    rwa [hc] at this
  · have := hf.2 v (by rw [h.vertices]; exact hv) h2 h1
    rw [h.outFlow hg hg', h.inFlow hg hg'] at this
    exact this.symm

theorem isMaxFlowValue_of (h : Reversed g g') (hg : Built g) (hg' : Built g') {cap cap' : Edge → UInt64} (hc : ∀ e, cap' (edge e) = cap e)
    {s t : VertexId} (hst : s ≠ t) {n : Nat} (hm : IsMaxFlowValue g' cap' t s n) : IsMaxFlowValue g cap s t n := by
  have hc' : ∀ e, cap (edge e) = cap' e := fun e => (hc (edge e)).symm
  have val : ∀ f, Feasible g cap s t f → GC.netOut g' (fun e => f (edge e)) t = GC.netOut g f s := by
    intro f hf
    rw [h.netOut hg hg', netOut_target hg.wf hst (f := f) (feasible_net.1 hf).2]
    omega
  obtain ⟨⟨f, h1, h2⟩, h3⟩ := hm
  refine ⟨⟨_, h.feasible hg hg' hc h1, ?_⟩, fun f hf => ?_⟩
  · rw [← val _ (h.feasible hg hg' hc h1)]
    exact h2
  · rw [← val f hf]
    exact h3 _ (h.symm.feasible hg' hg hc' hf)

theorem isMaxFlowValue (h : Reversed g g') (hg : Built g) (hg' : Built g') {cap cap' : Edge → UInt64} (hc : ∀ e, cap' (edge e) = cap e)
    {s t : VertexId} (hst : s ≠ t) (n : Nat) : IsMaxFlowValue g' cap' t s n ↔ IsMaxFlowValue g cap s t n :=
  ⟨h.isMaxFlowValue_of hg hg' hc hst, h.symm.isMaxFlowValue_of hg' hg (fun e => (hc (edge e)).symm) hst.symm⟩

end Reversed
end GC
