/-
Walks, paths and cycles of renamed and of reversed graphs.
-/
import Verif.Spec.Renamed
import Verif.Props.Seeds
import Mathlib.Data.Fintype.EquivFin
namespace GC
open DirectedGraph

theorem VertexId.finite : Finite VertexId := by
  refine Finite.of_injective (β := Fin (2 ^ 64)) (fun v => ⟨v.id.toNat, v.id.toNat_lt⟩) fun a b h => ?_
  cases a
  cases b
  simp only [Fin.mk.injEq] at h
  exact congrArg VertexId.mk (UInt64.toNat_inj.1 h)

namespace Renamed
variable {ρ : VertexId → VertexId} {g g' : DirectedGraph}

theorem surj (h : Renamed ρ g g') : Function.Surjective ρ := by
  have := VertexId.finite
  exact Finite.injective_iff_surjective.1 h.inj

/-- The old names. -/
theorem inverse (h : Renamed ρ g g') : ∃ σ, Renamed σ g' g ∧ (∀ v, σ (ρ v) = v) ∧ ∀ v, ρ (σ v) = v := by
  have h2 := Function.rightInverse_surjInv h.surj
  have h1 : ∀ v, Function.surjInv h.surj (ρ v) = v := fun v => h.inj (h2 _)
  refine ⟨Function.surjInv h.surj, ⟨Function.injective_surjInv _, fun v => ?_, fun u v => ?_⟩, h1, h2⟩
  · rw [← h.vertices, h2]
  · rw [← h.edges, h2, h2]

theorem adj (h : Renamed ρ g g') (u v : VertexId) : Adj g' (ρ u) (ρ v) ↔ Adj g u v := by
  unfold Adj
  rw [h.edges]

theorem reach_of (h : Renamed ρ g g') {u v : VertexId} (hr : Reach g u v) : Reach g' (ρ u) (ρ v) :=
  Relation.ReflTransGen.lift ρ (fun a b hab => (h.adj a b).2 hab) u v hr

theorem reach (h : Renamed ρ g g') (u v : VertexId) : Reach g' (ρ u) (ρ v) ↔ Reach g u v := by
  refine ⟨fun hr => ?_, h.reach_of⟩
  obtain ⟨σ, hs, h1, _⟩ := h.inverse
  have := hs.reach_of hr
  rwa [h1, h1] at this

theorem trans_of (h : Renamed ρ g g') {u v : VertexId} (hr : Relation.TransGen (Adj g) u v) : Relation.TransGen (Adj g') (ρ u) (ρ v) :=
  Relation.TransGen.lift ρ (fun a b hab => (h.adj a b).2 hab) u v hr

theorem trans (h : Renamed ρ g g') (u v : VertexId) : Relation.TransGen (Adj g') (ρ u) (ρ v) ↔ Relation.TransGen (Adj g) u v := by
  refine ⟨fun hr => ?_, h.trans_of⟩
  obtain ⟨σ, hs, h1, _⟩ := h.inverse
  have := hs.trans_of hr
  rwa [h1, h1] at this

theorem chain (h : Renamed ρ g g') (l : List VertexId) : (l.map ρ).IsChain (Adj g') ↔ l.IsChain (Adj g) := by
  rw [List.isChain_map]
  simp only [h.adj]

theorem list (h : Renamed ρ g g') (l' : List VertexId) : ∃ l : List VertexId, l' = l.map ρ := by
  obtain ⟨σ, _, _, h2⟩ := h.inverse
  exact ⟨l'.map σ, by simp [Function.comp_def, h2]⟩

theorem opt (h : Renamed ρ g g') (o : Option VertexId) (v : VertexId) : o.map ρ = some (ρ v) ↔ o = some v := by
  cases o with
  | none => simp
  | some u => simp [h.inj.eq_iff]

theorem walk (h : Renamed ρ g g') (u v : VertexId) (l : List VertexId) : WalkFromTo g' (ρ u) (ρ v) (l.map ρ) ↔ WalkFromTo g u v l := by
  unfold WalkFromTo
  rw [h.chain, List.head?_map, List.getLast?_map, h.opt, h.opt]

theorem walkFrom (h : Renamed ρ g g') (u : VertexId) (l : List VertexId) : WalkFrom g' (ρ u) (l.map ρ) ↔ WalkFrom g u l := by
  unfold WalkFrom
  rw [h.chain, List.head?_map, h.opt]

theorem nodup (h : Renamed ρ g g') (l : List VertexId) : (l.map ρ).Nodup ↔ l.Nodup := List.nodup_map_iff h.inj

theorem simplePath (h : Renamed ρ g g') (u : VertexId) (l : List VertexId) : SimplePathFrom g' (ρ u) (l.map ρ) ↔ SimplePathFrom g u l := by
  unfold SimplePathFrom
  rw [h.chain, List.head?_map, h.opt, h.nodup]

theorem mem (h : Renamed ρ g g') (v : VertexId) (l : List VertexId) : ρ v ∈ l.map ρ ↔ v ∈ l := List.mem_map_of_injective h.inj

theorem all (h : Renamed ρ g g') {P : VertexId → Prop} : (∀ v, P v) ↔ ∀ v, P (ρ v) := h.surj.forall

theorem hamiltonianPath (h : Renamed ρ g g') (l : List VertexId) : HamiltonianPath g' (l.map ρ) ↔ HamiltonianPath g l := by
  unfold HamiltonianPath
  rw [h.chain, h.nodup, h.all]
  simp only [h.mem, h.vertices]

theorem isCycle (h : Renamed ρ g g') (l : List VertexId) : IsCycle g' (l.map ρ) ↔ IsCycle g l := by
  unfold IsCycle
  have e : l.map ρ ++ (l.map ρ).head?.toList = (l ++ l.head?.toList).map ρ := by cases l <;> simp
  rw [h.nodup, e, h.chain]
  simp

theorem hamiltonianCycle (h : Renamed ρ g g') (l : List VertexId) : HamiltonianCycle g' (l.map ρ) ↔ HamiltonianCycle g l := by
  unfold HamiltonianCycle
  rw [h.isCycle, h.all]
  simp only [h.mem, h.vertices]

theorem acyclic (h : Renamed ρ g g') : Acyclic g' ↔ Acyclic g := by
  unfold Acyclic
  rw [h.all]
  simp only [h.trans]

theorem isRoot (h : Renamed ρ g g') (v : VertexId) : IsRoot g' (ρ v) ↔ IsRoot g v := by
  unfold IsRoot
  rw [h.vertices, h.all]
  simp only [h.adj]

theorem strong (h : Renamed ρ g g') : StronglyConnected g' ↔ StronglyConnected g := by
  unfold StronglyConnected
  rw [h.all]
  refine forall_congr' fun u => ?_
  rw [h.all]
  simp only [h.vertices, h.reach]

theorem onlyDeadEndLoop (h : Renamed ρ g g') (u : VertexId) : OnlyDeadEndLoop g' (ρ u) ↔ OnlyDeadEndLoop g u := by
  unfold OnlyDeadEndLoop
  rw [h.adj, h.all, h.all (P := fun v => Relation.TransGen (Adj g') v v → v = ρ u)]
  simp only [h.adj, h.trans, h.inj.eq_iff]

theorem vertices_perm (h : Renamed ρ g g') (hg : Built g) (hg' : Built g') : g'.vertices.Perm (g.vertices.map ρ) := by
  refine (List.perm_ext_iff_of_nodup hg'.wf.nodup_vertices ((h.nodup _).2 hg.wf.nodup_vertices)).2 fun v => ?_
  obtain ⟨v, rfl⟩ := h.surj v
  rw [h.mem, mem_vertices, mem_vertices, h.vertices]

theorem vertexCount (h : Renamed ρ g g') (hg : Built g) (hg' : Built g') : g'.vertexCount = g.vertexCount := by
  have := (h.vertices_perm hg hg').length_eq
  simpa [DirectedGraph.vertices, HMap.keys, DirectedGraph.vertexCount] using this

/-- The edge for the new names. -/
def edge (ρ : VertexId → VertexId) (e : Edge) : Edge := ⟨ρ e.src, ρ e.dst⟩

theorem edge_inj (h : Renamed ρ g g') : Function.Injective (edge ρ) := by
  intro a b hab
  cases a
  cases b
  simp only [edge, Edge.mk.injEq, h.inj.eq_iff] at hab
  rw [hab.1, hab.2]

theorem edge_surj (h : Renamed ρ g g') (e : Edge) : ∃ d, e = edge ρ d := by
  obtain ⟨u, hu⟩ := h.surj e.src
  obtain ⟨v, hv⟩ := h.surj e.dst
  exact ⟨⟨u, v⟩, by cases e; simp_all [edge]⟩

theorem edges_perm (h : Renamed ρ g g') (hg : Built g) (hg' : Built g') : g'.edges.Perm (g.edges.map (edge ρ)) := by
  refine (List.perm_ext_iff_of_nodup hg'.wf.nodup_edges ((List.nodup_map_iff h.edge_inj).2 hg.wf.nodup_edges)).2 fun e => ?_
  obtain ⟨e, rfl⟩ := h.edge_surj e
  rw [List.mem_map_of_injective h.edge_inj, hg.wf.mem_edges, hg'.wf.mem_edges]
  exact Bool.eq_iff_iff.1 (h.edges _ _)

/-! ### Constraints -/

/-- The scored path for the new names. -/
def scored (ρ : VertexId → VertexId) (sp : ScoredPath) : ScoredPath := ⟨⟨sp.path.vertices.map ρ⟩, sp.score⟩

theorem at_ (h : Renamed ρ g g') (p : Path) (i : Nat) (v : VertexId) : At ⟨p.vertices.map ρ⟩ i (ρ v) ↔ At p i v := by
  unfold At
  rw [List.getElem?_map, h.opt]

theorem rank (h : Renamed ρ g g') (l : List VertexId) (v : VertexId) (k : Nat) : Rank (l.map ρ) (ρ v) k ↔ Rank l v k := by
  unfold Rank
  simp only [List.getElem?_map, ne_eq, h.opt]

theorem inOrder (h : Renamed ρ g g') (l : List VertexId) (p : Path) : InOrder (l.map ρ) ⟨p.vertices.map ρ⟩ ↔ InOrder l p := by
  unfold InOrder
  refine forall_congr' fun i => forall_congr' fun j => ?_
  rw [h.all]
  refine forall_congr' fun u => ?_
  rw [h.all]
  simp only [h.at_, h.rank]

theorem visits (h : Renamed ρ g g') (p : Path) (v : VertexId) : Visits ⟨p.vertices.map ρ⟩ (ρ v) ↔ Visits p v := by
  unfold Visits
  simp only [h.at_]

theorem traverses (h : Renamed ρ g g') (p : Path) (e : Edge) : Traverses ⟨p.vertices.map ρ⟩ ⟨ρ e.src, ρ e.dst⟩ ↔ Traverses p e := by
  unfold Traverses
  simp only [h.at_]

theorem repeats (h : Renamed ρ g g') (p : Path) : RepeatsVertex ⟨p.vertices.map ρ⟩ ↔ RepeatsVertex p := by
  unfold RepeatsVertex
  refine exists_congr fun i => exists_congr fun j => ?_
  rw [h.surj.exists]
  simp only [h.at_]

theorem satisfies (h : Renamed ρ g g') (sp : ScoredPath) (c : Constraint) : Satisfies (scored ρ sp) (c.rename ρ) ↔ Satisfies sp c := by
  induction c with
  | ContainsVertex v => exact h.visits _ _
  | ContainsEdge e => exact h.traverses _ _
  | OrderedVertices l => exact h.inOrder _ _
  | ContainsCycle => exact h.repeats _
  | MinLength n => simp [Constraint.rename, Satisfies, scored]
  | MaxLength n => simp [Constraint.rename, Satisfies, scored]
  | MinScore n => simp [Constraint.rename, Satisfies, scored]
  | MaxScore n => simp [Constraint.rename, Satisfies, scored]
  | Or a b iha ihb => simp only [Constraint.rename, Satisfies, iha, ihb]
  | Xor a b iha ihb => simp only [Constraint.rename, Satisfies, iha, ihb]
  | And a b iha ihb => simp only [Constraint.rename, Satisfies, iha, ihb]
  | Not a ih => simp only [Constraint.rename, Satisfies, ih]

theorem notYetBroken (h : Renamed ρ g g') (sp : ScoredPath) (c : Constraint) : NotYetBroken (scored ρ sp) (c.rename ρ) ↔ NotYetBroken sp c := by
  induction c with
  | ContainsVertex v => exact Iff.rfl
  | ContainsEdge e => exact Iff.rfl
  | OrderedVertices l => exact h.inOrder _ _
  | ContainsCycle => exact Iff.rfl
  | MinLength n => exact Iff.rfl
  | MaxLength n => simp [Constraint.rename, NotYetBroken, scored]
  | MinScore n => exact Iff.rfl
  | MaxScore n => simp [Constraint.rename, NotYetBroken, scored]
  | Or a b iha ihb => simp only [Constraint.rename, NotYetBroken, iha, ihb]
  | Xor a b iha ihb => simp only [Constraint.rename, NotYetBroken, iha, ihb]
  | And a b iha ihb => simp only [Constraint.rename, NotYetBroken, iha, ihb]
  | Not a _ =>
    cases a with
    | ContainsVertex v => exact not_congr (h.visits _ _)
    | ContainsEdge e => exact not_congr (h.traverses _ _)
    | ContainsCycle => exact not_congr (h.repeats _)
    | _ => exact Iff.rfl

theorem unpruned (h : Renamed ρ g g') (cs : List Constraint) (start : VertexId) (sp : ScoredPath) :
    Unpruned g' (AStar.sumScore AStar.oneWeightedEdge AStar.zeroHeuristic) (cs.map (·.rename ρ)) (ρ start) (scored ρ sp) ↔
      Unpruned g (AStar.sumScore AStar.oneWeightedEdge AStar.zeroHeuristic) cs start sp := by
  have hsc : ∀ q : Path, AStar.sumScore AStar.oneWeightedEdge AStar.zeroHeuristic g' ⟨q.vertices.map ρ⟩ =
      AStar.sumScore AStar.oneWeightedEdge AStar.zeroHeuristic g q := by
    intro q
    unfold AStar.sumScore AStar.oneWeightedEdge AStar.zeroHeuristic Path.size
    rw [List.length_map]
  unfold Unpruned
  refine and_congr (h.walkFrom _ _) (and_congr ?_ ?_)
  · show _ = Run.done sp.score ↔ _
    exact Eq.congr_left (hsc sp.path)
  · constructor
    · intro k q hq hlen
      obtain ⟨s, h1, h2⟩ := k ⟨q.vertices.map ρ⟩ (hq.map ρ) (by simpa using hlen)
      rw [hsc] at h1
      exact ⟨s, h1, fun c hc => (h.notYetBroken ⟨q, s⟩ c).1 (h2 _ (List.mem_map_of_mem hc))⟩
    · intro k q hq hlen
      obtain ⟨l, hl⟩ := h.list q.vertices
      obtain ⟨q⟩ := q
      dsimp only at hl
      subst hl
      have hpre : l <+: sp.path.vertices := by
        obtain ⟨σ, _, hσ, _⟩ := h.inverse
        have := List.IsPrefix.map σ hq
        simpa [scored, Function.comp_def, hσ] using this
      obtain ⟨s, h1, h2⟩ := k ⟨l⟩ hpre (by simpa using hlen)
      rw [← hsc] at h1
      refine ⟨s, h1, fun c hc => ?_⟩
      obtain ⟨c, hcm, rfl⟩ := List.mem_map.1 hc
      exact (h.notYetBroken ⟨⟨l⟩, s⟩ c).2 (h2 c hcm)

/-! ### Weights -/

theorem walkWeight (ρ : VertexId → VertexId) {w w' : Edge → Int} (hw : ∀ u v, w' ⟨ρ u, ρ v⟩ = w ⟨u, v⟩) (l : List VertexId) :
    GC.walkWeight w' (l.map ρ) = GC.walkWeight w l := by
  induction l with
  | nil => rfl
  | cons a l ih =>
    cases l with
    | nil => rfl
    | cons b l =>
      simp only [List.map_cons, GC.walkWeight] at ih ⊢
      rw [ih, hw]

theorem smallWeights (h : Renamed ρ g g') (hg : Built g) (hg' : Built g') {w w' : Edge → Int} (hw : ∀ u v, w' ⟨ρ u, ρ v⟩ = w ⟨u, v⟩)
    (hs : SmallWeights g w) : SmallWeights g' w' := by
  intro e he
  obtain ⟨e, rfl⟩ := h.edge_surj e
  rw [h.vertexCount hg hg']
  have := hs e (by rw [← he]; exact (h.edges _ _).symm)
  rwa [show w' (edge ρ e) = w e from hw _ _]

theorem negativeCycle (h : Renamed ρ g g') {w w' : Edge → Int} (hw : ∀ u v, w' ⟨ρ u, ρ v⟩ = w ⟨u, v⟩) (s : VertexId) :
    NegativeCycle g' w' (ρ s) ↔ NegativeCycle g w s := by
  unfold NegativeCycle
  rw [h.surj.exists]
  refine exists_congr fun v => ?_
  constructor
  · rintro ⟨c, h1, h2, h3⟩
    obtain ⟨c, rfl⟩ := h.list c
    exact ⟨c, (h.reach _ _).1 h1, (h.walk _ _ _).1 h2, by rwa [walkWeight ρ hw] at h3⟩
  · rintro ⟨c, h1, h2, h3⟩
    exact ⟨c.map ρ, (h.reach _ _).2 h1, (h.walk _ _ _).2 h2, by rwa [walkWeight ρ hw]⟩

/-! ### Flows -/

theorem outFlow (h : Renamed ρ g g') (hg : Built g) (hg' : Built g') (f : Edge → Nat) (v : VertexId) :
    GC.outFlow g' f (ρ v) = GC.outFlow g (fun e => f (edge ρ e)) v := by
  classical
  unfold GC.outFlow
  have e : g'.edges.toFinset = g.edges.toFinset.image (edge ρ) := by
    rw [List.toFinset_eq_of_perm _ _ (h.edges_perm hg hg')]
    ext
    simp
  rw [e, Finset.filter_image, Finset.sum_image fun a _ b _ hab => h.edge_inj hab]
  refine Finset.sum_congr (Finset.filter_congr fun e _ => ?_) fun _ _ => rfl
  simp [edge, h.inj.eq_iff]

theorem inFlow (h : Renamed ρ g g') (hg : Built g) (hg' : Built g') (f : Edge → Nat) (v : VertexId) :
    GC.inFlow g' f (ρ v) = GC.inFlow g (fun e => f (edge ρ e)) v := by
  classical
  unfold GC.inFlow
  have e : g'.edges.toFinset = g.edges.toFinset.image (edge ρ) := by
    rw [List.toFinset_eq_of_perm _ _ (h.edges_perm hg hg')]
    ext
    simp
  rw [e, Finset.filter_image, Finset.sum_image fun a _ b _ hab => h.edge_inj hab]
  refine Finset.sum_congr (Finset.filter_congr fun e _ => ?_) fun _ _ => rfl
  simp [edge, h.inj.eq_iff]

theorem feasible (h : Renamed ρ g g') (hg : Built g) (hg' : Built g') {cap cap' : Edge → UInt64} (hc : ∀ u v, cap' ⟨ρ u, ρ v⟩ = cap ⟨u, v⟩)
    (s t : VertexId) (f : Edge → Nat) : Feasible g' cap' (ρ s) (ρ t) f ↔ Feasible g cap s t fun e => f (edge ρ e) := by
  unfold Feasible
  refine and_congr ?_ ?_
  · constructor
    · intro k e he
      have := k (edge ρ e) (by rw [← he]; exact h.edges _ _)
      rwa [show cap' (edge ρ e) = cap e from hc _ _] at this
    · intro k e he
      obtain ⟨e, rfl⟩ := h.edge_surj e
      rw [show cap' (edge ρ e) = cap e from hc _ _]
      exact k e (by rw [← he]; exact (h.edges _ _).symm)
  · rw [h.all]
    simp only [h.vertices, ne_eq, h.inj.eq_iff, h.outFlow hg hg', h.inFlow hg hg']

theorem isMaxFlowValue (h : Renamed ρ g g') (hg : Built g) (hg' : Built g') {cap cap' : Edge → UInt64}
    (hc : ∀ u v, cap' ⟨ρ u, ρ v⟩ = cap ⟨u, v⟩) (s t : VertexId) (n : Nat) :
    IsMaxFlowValue g' cap' (ρ s) (ρ t) n ↔ IsMaxFlowValue g cap s t n := by
  obtain ⟨σ, hs, h1, h2⟩ := h.inverse
  have back : ∀ f : Edge → Nat, (fun e => (fun d => f (edge σ d)) (edge ρ e)) = f := by
    intro f
    funext e
    simp [edge, h1]
  unfold IsMaxFlowValue netOut
  refine and_congr ⟨?_, ?_⟩ ⟨?_, ?_⟩
  · rintro ⟨f, a, b⟩
    exact ⟨_, (h.feasible hg hg' hc s t f).1 a, by rwa [h.outFlow hg hg', h.inFlow hg hg'] at b⟩
  · rintro ⟨f, a, b⟩
    refine ⟨fun d => f (edge σ d), (h.feasible hg hg' hc s t _).2 ?_, ?_⟩
    · rw [back]; exact a
    · rw [h.outFlow hg hg', h.inFlow hg hg', back]; exact b
  · intro k f hf
    have := k (fun d => f (edge σ d)) ((h.feasible hg hg' hc s t _).2 (by rw [back]; exact hf))
    rwa [h.outFlow hg hg', h.inFlow hg hg', back] at this
  · intro k f hf
    have := k _ ((h.feasible hg hg' hc s t f).1 hf)
    rwa [h.outFlow hg hg', h.inFlow hg hg']

end Renamed
end GC
