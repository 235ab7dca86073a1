/- Proofs about the topological sort. -/
import Verif.Model.Topo
import Verif.Spec.Topo
import Verif.Proofs.Prog
import Verif.Proofs.Graph
import Mathlib.Data.List.Nodup
import Mathlib.Data.List.Perm.Subperm
import Verif.Proofs.Finite
import Mathlib.Data.Fintype.Card
namespace GC
open DirectedGraph
namespace TopoSort

variable {g : DirectedGraph}

/-- Invariant of both loops. -/
structure Kahn (g : DirectedGraph) (s : State) : Prop where
  nd : (s.res ++ s.startVertices).Nodup
  rmnd : s.removedEdges.Nodup
  rmE : ∀ e ∈ s.removedEdges, g.containsEdge e = true
  mem : ∀ v, v ∈ s.res ++ s.startVertices ↔ g.containsVertex v = true ∧ ∀ u, Adj g u v → ⟨u, v⟩ ∈ s.removedEdges

theorem removeChild_res (s : State) (e : Edge) : (removeChild g s e).res = s.res := by
  unfold removeChild; dsimp only; split <;> rfl

theorem removeChild_removed (s : State) (e : Edge) (he : e ∉ s.removedEdges) :
    (removeChild g s e).removedEdges = s.removedEdges ++ [e] := by
  unfold removeChild HSet.insert
  rw [if_neg he]
  dsimp only
  split <;> rfl

theorem removeChild_start (s : State) (e : Edge) (he : e ∉ s.removedEdges) :
    (removeChild g s e).startVertices =
      s.startVertices ++ (if ∀ x ∈ g.inboundEdges e.dst, x ∈ s.removedEdges ++ [e] then [e.dst] else []) := by
  unfold removeChild HSet.insert
  simp only [if_neg he, List.all_eq_true, List.contains_iff_mem]
  split <;> simp

theorem Kahn.removeChild (hw : WF g) {s : State} (h : Kahn g s) {e : Edge} (he : e ∉ s.removedEdges)
    (hE : g.containsEdge e = true) : Kahn g (removeChild g s e) := by
  have hr := removeChild_res (g := g) s e
  have hrm := removeChild_removed (g := g) s e he
  have hst := removeChild_start (g := g) s e he
  have hnot : e.dst ∉ s.res ++ s.startVertices := by
    intro c
    exact he (((h.mem _).1 c).2 e.src hE)
  have hin : (∀ x ∈ g.inboundEdges e.dst, x ∈ s.removedEdges ++ [e]) ↔
      ∀ u, Adj g u e.dst → (⟨u, e.dst⟩ : Edge) ∈ s.removedEdges ++ [e] := by
    constructor
    · intro H u hu
      exact H _ (hw.mem_inbound.2 ⟨hu, rfl⟩)
    · intro H x hx
      obtain ⟨h1, h2⟩ := hw.mem_inbound.1 hx
      have := H x.src (by unfold Adj; rw [← h2]; exact h1)
      rw [← h2] at this
      exact this
  constructor
  · rw [hr, hst, ← List.append_assoc]
    split
    · rw [List.nodup_append]
      refine ⟨h.nd, by simp, ?_⟩
      intro a ha b hb hab
      rw [List.mem_singleton] at hb
      subst hb; subst hab
      exact hnot ha
    · simpa using h.nd
  · rw [hrm, List.nodup_append]
    refine ⟨h.rmnd, by simp, ?_⟩
    intro a ha b hb hab
    rw [List.mem_singleton] at hb
    subst hb; subst hab
    exact he ha
  · rw [hrm]
    intro x hx
    rcases List.mem_append.1 hx with hx | hx
    · exact h.rmE x hx
    · rw [List.mem_singleton] at hx; subst hx; exact hE
  · intro v
    rw [hr, hst, hrm, ← List.append_assoc, List.mem_append]
    by_cases hv : v = e.dst
    · subst hv
      constructor
      · rintro (c | c)
        · exact absurd c hnot
        · split at c
          · rename_i H
            exact ⟨hw.dst_mem hE, hin.1 H⟩
          · simp at c
      · rintro ⟨_, H⟩
        right
        rw [if_pos (hin.2 H)]
        simp
    · constructor
      · rintro (c | c)
        · obtain ⟨h1, h2⟩ := (h.mem v).1 c
          exact ⟨h1, fun u hu => List.mem_append_left _ (h2 u hu)⟩
        · split at c
          · exact absurd (List.mem_singleton.1 c) hv
          · simp at c
      · rintro ⟨h1, h2⟩
        left
        refine (h.mem v).2 ⟨h1, fun u hu => ?_⟩
        rcases List.mem_append.1 (h2 u hu) with c | c
        · exact c
        · exfalso
          rw [List.mem_singleton] at c
          apply hv
          rw [← c]

theorem foldl_removeChild (hw : WF g) (es : List Edge) (s : State) (h : Kahn g s) (hnd : es.Nodup)
    (hnew : ∀ e ∈ es, e ∉ s.removedEdges) (hE : ∀ e ∈ es, g.containsEdge e = true) :
    Kahn g (es.foldl (removeChild g) s) ∧ (es.foldl (removeChild g) s).res = s.res ∧
      (es.foldl (removeChild g) s).removedEdges = s.removedEdges ++ es := by
  induction es generalizing s with
  | nil => simpa using h
  | cons e es ih =>
    rw [List.nodup_cons] at hnd
    have he := hnew e (by simp)
    have hrm := removeChild_removed (g := g) s e he
    obtain ⟨h1, h2, h3⟩ := ih (TopoSort.removeChild g s e) (h.removeChild hw he (hE e (by simp))) hnd.2 (by
      intro x hx
      rw [hrm]
      simp only [List.mem_append, List.mem_singleton, not_or]
      refine ⟨hnew x (by simp [hx]), ?_⟩
      rintro rfl
      exact hnd.1 hx) (fun x hx => hE x (by simp [hx]))
    refine ⟨h1, by rw [List.foldl_cons, h2, removeChild_res], ?_⟩
    rw [List.foldl_cons, h3, hrm]
    simp

/-- Invariant of the `while` loop. -/
structure Inv (g : DirectedGraph) (s : State) : Prop extends Kahn g s where
  rm : ∀ e, e ∈ s.removedEdges ↔ g.containsEdge e = true ∧ e.src ∈ s.res
  ord : ∀ a v b, s.res = a ++ v :: b → ∀ u, Adj g u v → u ∈ a

theorem inv_init (hw : WF g) : Inv g ⟨[], findStartVertices g, []⟩ := by
  refine ⟨⟨?_, by simp, by simp, ?_⟩, by simp, by simp⟩
  · simpa [findStartVertices] using hw.nodup_vertices.filter _
  · intro v
    simp only [List.nil_append, findStartVertices, List.mem_filter, mem_vertices, isStartVertex, beq_iff_eq,
      List.length_eq_zero_iff, List.not_mem_nil, imp_false]
    refine and_congr_right fun _ => ?_
    constructor
    · intro h u hu
      have := (hw.mem_inbound (v := v) (e := ⟨u, v⟩)).2 ⟨hu, rfl⟩
      rw [h] at this
      simp at this
    · intro h
      rw [List.eq_nil_iff_forall_not_mem]
      intro e he
      obtain ⟨h1, h2⟩ := hw.mem_inbound.1 he
      exact h e.src (by unfold Adj; rw [← h2]; exact h1)

/-- The state after one round. -/
def nextState (g : DirectedGraph) (s : State) (start : VertexId) (rest : List VertexId) : State :=
  (children g { s with res := s.res ++ [start], startVertices := rest } start).foldl (removeChild g)
    { s with res := s.res ++ [start], startVertices := rest }

theorem Inv.next (hw : WF g) {s : State} (h : Inv g s) {start : VertexId} {rest : List VertexId}
    (hq : s.startVertices = start :: rest) :
    Inv g (nextState g s start rest) ∧ (nextState g s start rest).res = s.res ++ [start] := by
  have hns : start ∉ s.res := by
    have := h.nd
    rw [hq, List.nodup_append] at this
    intro c
    exact this.2.2 _ c start (by simp) rfl
  have hch : children g { s with res := s.res ++ [start], startVertices := rest } start = g.outboundEdges start := by
    unfold children
    rw [List.filter_eq_self]
    intro e he
    simp only [Bool.not_eq_true', ← Bool.not_eq_true, List.contains_iff_mem]
    intro c
    exact hns (by rw [← (hw.mem_outbound.1 he).2]; exact ((h.rm e).1 c).2)
  have hk : Kahn g { s with res := s.res ++ [start], startVertices := rest } := by
    have e : s.res ++ [start] ++ rest = s.res ++ s.startVertices := by rw [hq]; simp
    refine ⟨?_, h.rmnd, h.rmE, ?_⟩
    · simp only [e]; exact h.nd
    · simp only [e]; exact h.mem
  obtain ⟨h1, h2, h3⟩ := foldl_removeChild hw (g.outboundEdges start) _ hk (hw.nodup_outbound start) (by
    intro e he c
    exact hns (by rw [← (hw.mem_outbound.1 he).2]; exact ((h.rm e).1 c).2)) (fun e he => (hw.mem_outbound.1 he).1)
  unfold nextState
  rw [hch]
  refine ⟨⟨h1, ?_, ?_⟩, h2⟩
  · intro e
    rw [h3, h2]
    simp only [List.mem_append, List.mem_singleton, h.rm, hw.mem_outbound]
    tauto
  · rw [h2]
    intro a v b hab u hu
    rcases List.eq_nil_or_concat b with hb | ⟨b', x, hb⟩
    · subst hb
      have := List.append_inj' hab rfl
      simp only [List.cons.injEq, and_true] at this
      obtain ⟨h4, h5⟩ := this
      subst h5; subst h4
      have h6 := ((h.mem start).1 (by rw [hq]; simp)).2 u hu
      exact ((h.rm _).1 h6).2
    · rw [List.concat_eq_append] at hb
      subst hb
      have : s.res ++ [start] = (a ++ v :: b') ++ [x] := hab.trans (by simp)
      have := List.append_inj' this rfl
      exact h.ord a v b' this.1 u hu

theorem Inv.res_length (h : Inv g s) : s.res.length ≤ g.vertices.length := by
  have hnd : s.res.Nodup := (List.nodup_append.1 h.nd).1
  exact (hnd.subperm fun v hv => mem_vertices.2 ((h.mem v).1 (List.mem_append_left _ hv)).1).length_le

/-- The loop ends, in a state satisfying the invariant with nothing left to process. -/
theorem loop_ends (hw : WF g) :
    ∃ s, Returns (Prog.loop (step g) ⟨[], findStartVertices g, []⟩) s ∧ Inv g s ∧ s.startVertices = [] := by
  refine returns_loop_of_measure (Inv g) (fun s => Inv g s ∧ s.startVertices = [])
    (fun s => g.vertices.length - s.res.length) ?_ _ (inv_init hw)
  intro s h
  unfold step
  cases hq : s.startVertices with
  | nil => exact .inr ⟨s, Returns.ret _, h, hq⟩
  | cons start rest =>
    left
    obtain ⟨h1, h2⟩ := h.next hw hq
    refine ⟨_, Returns.ret _, h1, ?_⟩
    have := h1.res_length
    unfold nextState at h2 this
    rw [h2] at this ⊢
    simp only [List.length_append, List.length_singleton] at this ⊢
    omega

theorem before_of_split {l a b : List VertexId} {u v : VertexId} (h : l = a ++ v :: b) (hu : u ∈ a) : Before l u v := by
  obtain ⟨i, hi⟩ := List.mem_iff_getElem?.1 hu
  have hlt : i < a.length := by
    by_contra c
    rw [List.getElem?_eq_none (by omega)] at hi
    cases hi
  exact ⟨i, a.length, hlt, by rw [h, List.getElem?_append_left hlt, hi], by rw [h]; simp⟩

theorem _root_.GC.Before.ne {l : List VertexId} (hl : l.Nodup) {u v : VertexId} (h : Before l u v) : u ≠ v := by
  obtain ⟨i, j, hij, h1, h2⟩ := h
  rintro rfl
  have := (List.nodup_iff_getElem?_ne_getElem?.1 hl) i j hij (by
    by_contra c
    rw [List.getElem?_eq_none (by omega)] at h2
    cases h2)
  exact this (h1.trans h2.symm)

theorem _root_.GC.Before.trans {l : List VertexId} (hl : l.Nodup) {u v w : VertexId} (h1 : Before l u v) (h2 : Before l v w) :
    Before l u w := by
  obtain ⟨i, j, hij, a1, a2⟩ := h1
  obtain ⟨j', k, hjk, b1, b2⟩ := h2
  have : j = j' := by
    have hj : j < l.length := by
      by_contra c
      rw [List.getElem?_eq_none (by omega)] at a2
      cases a2
    exact (List.getElem?_inj hj hl).1 (a2.trans b1.symm)
  subst this
  exact ⟨i, k, by omega, a1, b2⟩

theorem before_transGen {l : List VertexId} (hl : l.Nodup) (H : ∀ u v, Adj g u v → Before l u v) {u v : VertexId}
    (h : Relation.TransGen (Adj g) u v) : Before l u v := by
  induction h with
  | single h => exact H _ _ h
  | tail _ h ih => exact ih.trans hl (H _ _ h)

/-- A topological order exists only for acyclic graphs. -/
theorem acyclic_of_order {l : List VertexId} (h : TopologicalOrder g l) : Acyclic g :=
  fun _ hv => (before_transGen h.1 h.2.2 hv).ne h.1 rfl

/-- In the final state, every processed vertex comes after all its predecessors. -/
theorem Inv.before (h : Inv g s) {u v : VertexId} (hv : v ∈ s.res) (hu : Adj g u v) : Before s.res u v := by
  obtain ⟨a, b, hab⟩ := List.append_of_mem hv
  exact before_of_split hab (h.ord a v b hab u hu)

theorem Inv.no_loop (h : Inv g s) {v : VertexId} (hv : v ∈ s.res) : ¬ Adj g v v :=
  fun c => (h.before hv c).ne (List.nodup_append.1 h.nd).1 rfl

theorem Inv.final_mem (h : Inv g s) (hq : s.startVertices = []) (v : VertexId) :
    v ∈ s.res ↔ g.containsVertex v = true ∧ ∀ u, Adj g u v → u ∈ s.res := by
  have h1 := h.mem v
  rw [hq, List.append_nil] at h1
  rw [h1]
  refine and_congr_right fun _ => forall_congr' fun u => forall_congr' fun hu => ?_
  rw [h.rm]
  exact ⟨fun c => c.2, fun c => ⟨hu, c⟩⟩

theorem transGen_wf (ha : Acyclic g) : WellFounded (Relation.TransGen (Adj g)) := by
  have i2 : Std.Irrefl (Relation.TransGen (Adj g)) := ⟨fun a h => ha a h⟩
  exact Finite.wellFounded_of_trans_of_irrefl _

/-- On an acyclic graph every vertex is processed. -/
theorem Inv.all_of_acyclic (hw : WF g) (h : Inv g s) (hq : s.startVertices = []) (ha : Acyclic g) (v : VertexId) :
    v ∈ s.res ↔ g.containsVertex v = true := by
  refine ⟨fun hv => ((h.final_mem hq v).1 hv).1, ?_⟩
  induction (transGen_wf ha).apply v with
  | intro v _ ih =>
    intro hv
    exact (h.final_mem hq v).2 ⟨hv, fun u hu => ih u (.single hu) (hw.src_mem hu)⟩

theorem Inv.removed_length_of_all (hw : WF g) (h : Inv g s) (H : ∀ e, g.containsEdge e = true → e.src ∈ s.res) :
    s.removedEdges.length = g.edges.length := by
  apply List.Perm.length_eq
  rw [List.perm_ext_iff_of_nodup h.rmnd hw.nodup_edges]
  intro e
  rw [h.rm, hw.mem_edges]
  exact ⟨fun c => c.1, fun c => ⟨c, H e c⟩⟩

/-- The removed edges are edges that are not self-loops. -/
theorem Inv.removed_subperm (hw : WF g) (h : Inv g s) :
    s.removedEdges.Subperm (g.edges.filter (fun e => e.src ≠ e.dst)) := by
  refine h.rmnd.subperm fun e he => ?_
  obtain ⟨h1, h2⟩ := (h.rm e).1 he
  rw [List.mem_filter]
  refine ⟨hw.mem_edges.2 h1, ?_⟩
  simp only [ne_eq, decide_eq_true_eq]
  intro c
  refine h.no_loop h2 ?_
  unfold Adj
  cases e
  simp_all

theorem topologicalSort_returns (hw : WF g) :
    ∃ s, Inv g s ∧ s.startVertices = [] ∧
      Returns (topologicalSort g) (if s.removedEdges.length ≠ g.edgeCount then none else some s.res) := by
  obtain ⟨s, h1, h2, h3⟩ := loop_ends hw
  refine ⟨s, h2, h3, Returns.bind h1 ?_⟩
  split <;> exact Returns.ret _

end TopoSort
end GC
