/- Invariant of the edge map and refinement of the set semantics. -/
import Verif.Spec.Graph
import Verif.Proofs.HMap
namespace GC
open HMap DirectedGraph

/-- Edges stored under a vertex. -/
def inc (g : DirectedGraph) (v : VertexId) : List Edge := (get? g.edgeMap v).getD []

/-- Well-formedness of the edge map. -/
structure WF (g : DirectedGraph) : Prop where
  keys : (keys g.edgeMap).Nodup
  nodup : ∀ v, (inc g v).Nodup
  touch : ∀ v e, e ∈ inc g v → e.src = v ∨ e.dst = v
  sym : ∀ v e, e ∈ inc g v → e ∈ inc g e.src ∧ e ∈ inc g e.dst

theorem mem_vertices {g : DirectedGraph} {v : VertexId} : v ∈ g.vertices ↔ g.containsVertex v = true :=
  containsKey_iff.symm

theorem containsVertex_of_mem_inc {g : DirectedGraph} {v : VertexId} {e : Edge} (h : e ∈ inc g v) :
    g.containsVertex v = true := by
  unfold inc at h
  unfold containsVertex HMap.containsKey
  cases h' : get? g.edgeMap v with
  | none => simp [h'] at h
  | some l => rfl

theorem containsEdge_iff_inc {g : DirectedGraph} {e : Edge} :
    g.containsEdge e = true ↔ e ∈ inc g e.src ∧ g.containsVertex e.dst = true := by
  unfold containsEdge
  by_cases h1 : g.containsVertex e.src = true
  · by_cases h2 : g.containsVertex e.dst = true
    · simp only [h1, h2, Bool.and_self, if_true, and_true]
      unfold inc
      cases get? g.edgeMap e.src <;> simp
    · simp [h1, h2]
  · simp only [h1, Bool.false_and, Bool.false_eq_true, if_false, false_iff]
    exact fun h => h1 (containsVertex_of_mem_inc h.1)

namespace WF
variable {g : DirectedGraph}

theorem containsEdge_iff (h : WF g) {e : Edge} : g.containsEdge e = true ↔ e ∈ inc g e.src := by
  rw [containsEdge_iff_inc]
  exact ⟨fun h' => h'.1, fun h' => ⟨h', containsVertex_of_mem_inc (h.sym _ _ h').2⟩⟩

theorem mem_inc_iff (h : WF g) {v : VertexId} {e : Edge} :
    e ∈ inc g v ↔ g.containsEdge e = true ∧ (e.src = v ∨ e.dst = v) := by
  rw [h.containsEdge_iff]
  constructor
  · exact fun h' => ⟨(h.sym _ _ h').1, h.touch _ _ h'⟩
  · rintro ⟨h1, h2⟩
    rcases h2 with rfl | rfl
    · exact h1
    · exact (h.sym _ _ h1).2

theorem src_mem (h : WF g) {e : Edge} (he : g.containsEdge e = true) : g.containsVertex e.src = true :=
  containsVertex_of_mem_inc (h.containsEdge_iff.1 he)

theorem dst_mem (h : WF g) {e : Edge} (he : g.containsEdge e = true) : g.containsVertex e.dst = true :=
  containsVertex_of_mem_inc (h.sym _ _ (h.containsEdge_iff.1 he)).2

theorem mem_outbound (h : WF g) {v : VertexId} {e : Edge} :
    e ∈ g.outboundEdges v ↔ g.containsEdge e = true ∧ e.src = v := by
  have : e ∈ g.outboundEdges v ↔ e ∈ inc g v ∧ e.src = v := by simp [outboundEdges, inc]
  rw [this, h.mem_inc_iff]
  constructor
  · rintro ⟨⟨a, _⟩, b⟩; exact ⟨a, b⟩
  · rintro ⟨a, b⟩; exact ⟨⟨a, .inl b⟩, b⟩

theorem mem_inbound (h : WF g) {v : VertexId} {e : Edge} :
    e ∈ g.inboundEdges v ↔ g.containsEdge e = true ∧ e.dst = v := by
  have : e ∈ g.inboundEdges v ↔ e ∈ inc g v ∧ e.dst = v := by simp [inboundEdges, inc]
  rw [this, h.mem_inc_iff]
  constructor
  · rintro ⟨⟨a, _⟩, b⟩; exact ⟨a, b⟩
  · rintro ⟨a, b⟩; exact ⟨⟨a, .inr b⟩, b⟩

theorem nodup_outbound (h : WF g) (v : VertexId) : (g.outboundEdges v).Nodup := (h.nodup v).filter _
theorem nodup_inbound (h : WF g) (v : VertexId) : (g.inboundEdges v).Nodup := (h.nodup v).filter _

theorem nodup_vertices (h : WF g) : g.vertices.Nodup := h.keys

/-- Out-neighbours in the order the code visits them. -/
theorem mem_outs (h : WF g) {u v : VertexId} :
    v ∈ (g.outboundEdges u).map Edge.dst ↔ Adj g u v := by
  simp only [List.mem_map, h.mem_outbound, Adj]
  constructor
  · rintro ⟨⟨s, d⟩, ⟨a, rfl⟩, rfl⟩; exact a
  · intro a; exact ⟨_, ⟨a, rfl⟩, rfl⟩

theorem nodup_outs (h : WF g) (u : VertexId) : ((g.outboundEdges u).map Edge.dst).Nodup := by
  refine List.Nodup.map_on ?_ (h.nodup_outbound u)
  intro a ha b hb hab
  have h1 := (h.mem_outbound.1 ha).2
  have h2 := (h.mem_outbound.1 hb).2
  cases a; cases b; simp_all

theorem mem_ins (h : WF g) {u v : VertexId} :
    u ∈ (g.inboundEdges v).map Edge.src ↔ Adj g u v := by
  simp only [List.mem_map, h.mem_inbound, Adj]
  constructor
  · rintro ⟨⟨s, d⟩, ⟨a, rfl⟩, rfl⟩; exact a
  · intro a; exact ⟨_, ⟨a, rfl⟩, rfl⟩

theorem get?_of_mem (h : WF g) {p : VertexId × List Edge} (hp : p ∈ g.edgeMap) : inc g p.1 = p.2 := by
  unfold inc
  rw [(get?_eq_some_iff h.keys (k := p.1) (v := p.2)).2 hp]
  rfl

theorem mem_edges (h : WF g) {e : Edge} : e ∈ g.edges ↔ g.containsEdge e = true := by
  unfold edges
  rw [List.mem_flatMap]
  constructor
  · rintro ⟨p, hp, he⟩
    rw [List.mem_filter] at he
    have := h.get?_of_mem hp
    rw [← this] at he
    exact (h.mem_inc_iff.1 he.1).1
  · intro he
    have h1 := h.containsEdge_iff.1 he
    have : ∃ es, get? g.edgeMap e.src = some es := by
      unfold inc at h1
      cases h' : get? g.edgeMap e.src with
      | none => simp [h'] at h1
      | some es => exact ⟨es, rfl⟩
    obtain ⟨es, hes⟩ := this
    refine ⟨(e.src, es), get?_mem hes, ?_⟩
    unfold inc at h1
    rw [hes] at h1
    simpa using h1

theorem nodup_edges (h : WF g) : g.edges.Nodup := by
  unfold edges
  rw [List.nodup_flatMap]
  constructor
  · intro p hp
    rw [← h.get?_of_mem hp]
    exact (h.nodup _).filter _
  · have := h.keys
    unfold HMap.keys at this
    rw [List.Nodup, List.pairwise_map] at this
    refine this.imp ?_
    intro a b hab
    simp only [Function.onFun, List.disjoint_left, List.mem_filter, decide_eq_true_eq]
    rintro e ⟨_, he⟩ ⟨_, he'⟩
    exact hab (he.trans he'.symm)

end WF

/-! ### Effect of the operations on the stored lists -/

theorem inc_new (v : VertexId) : inc .new v = [] := rfl

theorem inc_addVertex (g : DirectedGraph) (u v : VertexId) : inc (g.addVertex u).2 v = inc g v := by
  unfold addVertex
  split
  · rfl
  · rename_i h
    unfold inc
    simp only [get?_insert]
    split
    · rename_i e
      subst e
      have : get? g.edgeMap v = none := by
        rw [get?_eq_none_iff, ← containsKey_iff]; exact h
      simp [this]
    · rfl

theorem containsVertex_addVertex (g : DirectedGraph) (u v : VertexId) :
    (g.addVertex u).2.containsVertex v = true ↔ g.containsVertex v = true ∨ v = u := by
  unfold addVertex
  split
  · rename_i h
    constructor
    · exact Or.inl
    · rintro (h' | rfl)
      · exact h'
      · exact h
  · simp only [containsVertex, containsKey_iff, mem_keys_insert]
    exact Or.comm

theorem keys_addVertex {g : DirectedGraph} (h : (keys g.edgeMap).Nodup) (u : VertexId) :
    (keys (g.addVertex u).2.edgeMap).Nodup := by
  unfold addVertex
  split
  · exact h
  · exact nodup_keys_insert h _ _

theorem inc_removeEdge (g : DirectedGraph) (e : Edge) (v : VertexId) :
    inc (g.removeEdge e).2 v =
      if v = e.src ∨ v = e.dst then (inc g v).filter (fun e' => e' ≠ e) else inc g v := by
  unfold removeEdge inc
  simp only [get?_modify]
  generalize get? g.edgeMap v = o
  by_cases h1 : v = e.src
  · by_cases h2 : v = e.dst <;> cases o <;> simp [h1, List.filter_filter]
  · by_cases h2 : v = e.dst
    · have h3 : ¬ e.dst = e.src := fun h => h1 (h2.trans h)
      cases o <;> simp [h2, h3]
    · cases o <;> simp [h1, h2]

theorem keys_removeEdge (g : DirectedGraph) (e : Edge) :
    keys (g.removeEdge e).2.edgeMap = keys g.edgeMap := by
  simp [removeEdge]

theorem containsVertex_congr {g h : DirectedGraph} (e : keys g.edgeMap = keys h.edgeMap) (v : VertexId) :
    g.containsVertex v = h.containsVertex v := by
  rw [Bool.eq_iff_iff]
  simp only [containsVertex, containsKey_iff, e]

theorem mem_inc_removeEdge {g : DirectedGraph} {e x : Edge} {v : VertexId} :
    x ∈ inc (g.removeEdge e).2 v ↔ x ∈ inc g v ∧ ¬ (x = e ∧ (v = e.src ∨ v = e.dst)) := by
  rw [inc_removeEdge]
  split
  · rename_i h; simp [h]
  · rename_i h; simp [h]

theorem sublist_inc_removeEdge (g : DirectedGraph) (e : Edge) (v : VertexId) :
    (inc (g.removeEdge e).2 v).Sublist (inc g v) := by
  rw [inc_removeEdge]
  split
  · exact List.filter_sublist
  · exact List.Sublist.refl _

theorem foldl_removeEdge (es : List Edge) (g : DirectedGraph) :
    keys (es.foldl (fun g e => (g.removeEdge e).2) g).edgeMap = keys g.edgeMap ∧
    (∀ v, (inc (es.foldl (fun g e => (g.removeEdge e).2) g) v).Sublist (inc g v)) ∧
    (∀ v x, x ∈ inc (es.foldl (fun g e => (g.removeEdge e).2) g) v ↔
      x ∈ inc g v ∧ ¬ (x ∈ es ∧ (v = x.src ∨ v = x.dst))) := by
  induction es generalizing g with
  | nil => simp
  | cons e es ih =>
    obtain ⟨h1, h2, h3⟩ := ih (g.removeEdge e).2
    simp only [List.foldl_cons]
    refine ⟨h1.trans (keys_removeEdge _ _), fun v => (h2 v).trans (sublist_inc_removeEdge _ _ _), ?_⟩
    intro v x
    rw [h3, mem_inc_removeEdge, List.mem_cons]
    constructor
    · rintro ⟨⟨a, b⟩, c⟩
      refine ⟨a, ?_⟩
      rintro ⟨rfl | d, f⟩
      · exact b ⟨rfl, f⟩
      · exact c ⟨d, f⟩
    · rintro ⟨a, b⟩
      refine ⟨⟨a, ?_⟩, fun c => b ⟨.inr c.1, c.2⟩⟩
      rintro ⟨rfl, f⟩
      exact b ⟨.inl rfl, f⟩

theorem inc_remove (m : HMap VertexId (List Edge)) (v x : VertexId) :
    inc ⟨HMap.remove m v⟩ x = if x = v then [] else inc ⟨m⟩ x := by
  unfold inc
  simp only [get?_remove]
  split <;> simp

theorem removeVertex_eq (g : DirectedGraph) (v : VertexId) :
    g.removeVertex v = (g.containsVertex v,
      (inc g v).foldl (fun g e => (g.removeEdge e).2) ⟨HMap.remove g.edgeMap v⟩) := by
  unfold removeVertex inc containsVertex HMap.containsKey
  cases get? g.edgeMap v <;> rfl

theorem mem_inc_removeVertex {g : DirectedGraph} {x : Edge} {v w : VertexId} :
    x ∈ inc (g.removeVertex v).2 w ↔ w ≠ v ∧ x ∈ inc g w ∧ ¬ (x ∈ inc g v ∧ (w = x.src ∨ w = x.dst)) := by
  rw [removeVertex_eq]
  simp only
  rw [(foldl_removeEdge _ _).2.2, inc_remove]
  split
  · rename_i h; simp [h]
  · rename_i h; simp [h]

theorem containsVertex_removeVertex (g : DirectedGraph) (u v : VertexId) :
    (g.removeVertex u).2.containsVertex v = true ↔ g.containsVertex v = true ∧ v ≠ u := by
  rw [removeVertex_eq]
  simp only [containsVertex, containsKey_iff]
  rw [(foldl_removeEdge _ _).1, keys_remove]
  simp

theorem inc_addEdge (g : DirectedGraph) (e : Edge) (v : VertexId) :
    inc (g.addEdge e).2 v =
      if g.containsEdge e = false ∧ (v = e.src ∨ v = e.dst) then inc g v ++ [e] else inc g v := by
  unfold addEdge
  cases hc : g.containsEdge e with
  | true => simp
  | false =>
    simp only [Bool.not_false, if_true, true_and]
    have hk : ∀ v, v = e.src ∨ v = e.dst →
        ∃ l, get? ((g.addVertex e.src).2.addVertex e.dst).2.edgeMap v = some l ∧ l = inc g v := by
      intro v hv
      have h1 : ((g.addVertex e.src).2.addVertex e.dst).2.containsVertex v = true := by
        rw [containsVertex_addVertex, containsVertex_addVertex]
        rcases hv with rfl | rfl
        · exact .inl (.inr rfl)
        · exact .inr rfl
      have h2 := (inc_addVertex (g.addVertex e.src).2 e.dst v).trans (inc_addVertex g e.src v)
      unfold containsVertex HMap.containsKey at h1
      unfold inc at h2
      cases h3 : get? ((g.addVertex e.src).2.addVertex e.dst).2.edgeMap v with
      | none => simp [h3] at h1
      | some l => exact ⟨l, rfl, by simpa [h3, inc] using h2⟩
    have hn : ∀ v, (get? ((g.addVertex e.src).2.addVertex e.dst).2.edgeMap v).getD [] = inc g v := by
      intro v
      have h2 := (inc_addVertex (g.addVertex e.src).2 e.dst v).trans (inc_addVertex g e.src v)
      exact h2
    by_cases hsd : e.src = e.dst
    · simp only [hsd, ne_eq, not_true, if_false, or_self]
      by_cases hv : v = e.dst
      · obtain ⟨l, hl, hl'⟩ := hk v (.inr hv)
        simp only [hsd] at hl
        simp only [inc, get?_modify, hv, if_true] at *
        simp [hl, hl']
      · have := hn v
        simp only [hsd] at this
        simp only [inc, get?_modify, hv, if_false, this]
    · simp only [hsd, ne_eq, not_false_iff, if_true]
      by_cases hv : v = e.src ∨ v = e.dst
      · obtain ⟨l, hl, hl'⟩ := hk v hv
        rcases hv with hv | hv
        · have : v ≠ e.dst := fun h => hsd (hv.symm.trans h)
          simp only [hv] at hl hl' this
          unfold inc
          simp only [get?_modify, hv, this, if_true, if_false, hl, hl', true_or]
          simp [inc]
        · have : v ≠ e.src := fun h => hsd (h.symm.trans hv)
          simp only [hv] at hl hl' this
          unfold inc
          simp only [get?_modify, hv, this, if_true, if_false, hl, hl', or_true]
          simp [inc]
      · have := hn v
        simp only [not_or] at hv
        unfold inc
        simp only [get?_modify, hv.1, hv.2, if_false, this, or_self]
        rfl

theorem keys_addEdge (g : DirectedGraph) (e : Edge) :
    keys (g.addEdge e).2.edgeMap =
      if g.containsEdge e = false then keys ((g.addVertex e.src).2.addVertex e.dst).2.edgeMap
      else keys g.edgeMap := by
  unfold addEdge
  cases g.containsEdge e with
  | true => simp
  | false =>
    simp only [Bool.not_false, if_true]
    split <;> simp

theorem containsVertex_addEdge {g : DirectedGraph} (h : WF g) (e : Edge) (v : VertexId) :
    (g.addEdge e).2.containsVertex v = true ↔ g.containsVertex v = true ∨ v = e.src ∨ v = e.dst := by
  have hk := keys_addEdge g e
  cases hc : g.containsEdge e with
  | true =>
    rw [hc] at hk
    rw [containsVertex_congr hk]
    constructor
    · exact Or.inl
    · rintro (h' | rfl | rfl)
      · exact h'
      · exact h.src_mem hc
      · exact h.dst_mem hc
  | false =>
    rw [hc] at hk
    rw [containsVertex_congr hk, containsVertex_addVertex, containsVertex_addVertex, or_assoc]

/-- The two `unwrap` calls in `add_edge` cannot fail: both endpoints were just added. -/
theorem addEdge_unwraps_succeed (g : DirectedGraph) (e : Edge) :
    (get? ((g.addVertex e.src).2.addVertex e.dst).2.edgeMap e.src).isSome ∧
    (get? ((g.addVertex e.src).2.addVertex e.dst).2.edgeMap e.dst).isSome := by
  constructor
  · have : ((g.addVertex e.src).2.addVertex e.dst).2.containsVertex e.src = true := by
      rw [containsVertex_addVertex, containsVertex_addVertex]; exact .inl (.inr rfl)
    exact this
  · have : ((g.addVertex e.src).2.addVertex e.dst).2.containsVertex e.dst = true := by
      rw [containsVertex_addVertex]; exact .inr rfl
    exact this

/-! ### The invariant is preserved -/

theorem WF.new : WF .new := by
  refine ⟨by simp [DirectedGraph.new, HMap.keys], ?_, ?_, ?_⟩ <;> simp [inc_new]

theorem WF.addVertex {g : DirectedGraph} (h : WF g) (v : VertexId) : WF (g.addVertex v).2 := by
  refine ⟨keys_addVertex h.keys v, ?_, ?_, ?_⟩
  · intro w; rw [inc_addVertex]; exact h.nodup w
  · intro w e; rw [inc_addVertex]; exact h.touch w e
  · intro w e; rw [inc_addVertex, inc_addVertex, inc_addVertex]; exact h.sym w e

theorem WF.removeEdge {g : DirectedGraph} (h : WF g) (e : Edge) : WF (g.removeEdge e).2 := by
  refine ⟨by rw [keys_removeEdge]; exact h.keys, ?_, ?_, ?_⟩
  · intro w; exact (h.nodup w).sublist (sublist_inc_removeEdge g e w)
  · intro w x hx; exact h.touch w x (mem_inc_removeEdge.1 hx).1
  · intro w x hx
    rw [mem_inc_removeEdge] at hx
    have hs := h.sym w x hx.1
    have ht := h.touch w x hx.1
    have hne : x ≠ e := by
      rintro rfl
      exact hx.2 ⟨rfl, by rcases ht with h | h <;> simp [h]⟩
    exact ⟨mem_inc_removeEdge.2 ⟨hs.1, fun c => hne c.1⟩, mem_inc_removeEdge.2 ⟨hs.2, fun c => hne c.1⟩⟩

theorem WF.removeVertex {g : DirectedGraph} (h : WF g) (v : VertexId) : WF (g.removeVertex v).2 := by
  refine ⟨?_, ?_, ?_, ?_⟩
  · rw [removeVertex_eq]
    simp only
    rw [(foldl_removeEdge _ _).1]
    exact nodup_keys_remove h.keys v
  · intro w
    rw [removeVertex_eq]
    refine List.Nodup.sublist ((foldl_removeEdge _ _).2.1 w) ?_
    rw [inc_remove]
    split
    · simp
    · exact h.nodup w
  · intro w x hx; exact h.touch w x (mem_inc_removeVertex.1 hx).2.1
  · intro w x hx
    rw [mem_inc_removeVertex] at hx
    obtain ⟨hw, hx, hn⟩ := hx
    have hs := h.sym w x hx
    have ht := h.touch w x hx
    have hnv : x ∉ inc g v := fun c => hn ⟨c, by rcases ht with h | h <;> simp [h]⟩
    have h1 : x.src ≠ v := by rintro rfl; exact hnv hs.1
    have h2 : x.dst ≠ v := by rintro rfl; exact hnv hs.2
    exact ⟨mem_inc_removeVertex.2 ⟨h1, hs.1, fun c => hnv c.1⟩, mem_inc_removeVertex.2 ⟨h2, hs.2, fun c => hnv c.1⟩⟩

theorem mem_inc_addEdge {g : DirectedGraph} (h : WF g) {e x : Edge} {v : VertexId} :
    x ∈ inc (g.addEdge e).2 v ↔ x ∈ inc g v ∨ (x = e ∧ (v = e.src ∨ v = e.dst)) := by
  rw [inc_addEdge]
  split
  · rename_i h'
    simp [h'.2]
  · rename_i h'
    constructor
    · exact Or.inl
    · rintro (h1 | ⟨rfl, h1⟩)
      · exact h1
      · have : g.containsEdge x = true := by
          cases hc : g.containsEdge x
          · exact absurd ⟨hc, h1⟩ h'
          · rfl
        rw [h.mem_inc_iff]
        exact ⟨this, by rcases h1 with h | h <;> simp [h]⟩

theorem WF.addEdge {g : DirectedGraph} (h : WF g) (e : Edge) : WF (g.addEdge e).2 := by
  refine ⟨?_, ?_, ?_, ?_⟩
  · rw [keys_addEdge]
    split
    · exact keys_addVertex (keys_addVertex h.keys _) _
    · exact h.keys
  · intro w
    rw [inc_addEdge]
    split
    · rename_i h'
      rw [List.nodup_append]
      refine ⟨h.nodup w, by simp, ?_⟩
      intro a ha b hb
      simp only [List.mem_singleton] at hb
      subst hb
      rintro rfl
      have := (h.mem_inc_iff.1 ha).1
      rw [h'.1] at this
      cases this
    · exact h.nodup w
  · intro w x hx
    rcases (mem_inc_addEdge h).1 hx with h' | ⟨rfl, h'⟩
    · exact h.touch w x h'
    · rcases h' with h' | h' <;> simp [h']
  · intro w x hx
    rcases (mem_inc_addEdge h).1 hx with h' | ⟨rfl, h'⟩
    · exact ⟨(mem_inc_addEdge h).2 (.inl (h.sym w x h').1), (mem_inc_addEdge h).2 (.inl (h.sym w x h').2)⟩
    · exact ⟨(mem_inc_addEdge h).2 (.inr ⟨rfl, .inl rfl⟩), (mem_inc_addEdge h).2 (.inr ⟨rfl, .inr rfl⟩)⟩

theorem WF.applyTo {g : DirectedGraph} (h : WF g) (c : GraphCommand) : WF (c.applyTo g) := by
  cases c
  · exact h.addVertex _
  · exact h.removeVertex _
  · exact h.addEdge _
  · exact h.removeEdge _

theorem inc_perm {g : DirectedGraph} (h : WF g) {m : HMap VertexId (List Edge)} (p : g.edgeMap.Perm m) (v : VertexId) :
    inc ⟨m⟩ v = inc g v := by
  unfold inc
  rw [get?_perm h.keys p]

theorem WF.perm {g : DirectedGraph} (h : WF g) {m : HMap VertexId (List Edge)} (p : g.edgeMap.Perm m) : WF ⟨m⟩ := by
  refine ⟨(p.map Prod.fst).nodup_iff.1 h.keys, ?_, ?_, ?_⟩
  · intro v; rw [inc_perm h p]; exact h.nodup v
  · intro v e; rw [inc_perm h p]; exact h.touch v e
  · intro v e; rw [inc_perm h p, inc_perm h p, inc_perm h p]; exact h.sym v e

theorem Evolves.wf {cs : List GraphCommand} {g : DirectedGraph} (h : Evolves cs g) : WF g := by
  induction h with
  | new => exact WF.new
  | apply c _ ih => exact ih.applyTo c
  | reorder _ p ih => exact ih.perm p

theorem Built.wf {g : DirectedGraph} (h : Built g) : WF g := h.elim fun _ h => h.wf

theorem Built.applyTo {g : DirectedGraph} (h : Built g) (c : GraphCommand) : Built (c.applyTo g) :=
  h.elim fun _ h => ⟨_, h.apply c⟩

theorem Built.new : Built .new := ⟨_, .new⟩

theorem Built.applyCommands {g : DirectedGraph} (h : Built g) (cs : List GraphCommand) :
    Built (GraphCommand.applyCommands cs g) := by
  unfold GraphCommand.applyCommands
  induction cs generalizing g with
  | nil => exact h
  | cons c cs ih => exact ih (h.applyTo c)

theorem Built.reorder {g : DirectedGraph} (h : Built g) {m} (p : g.edgeMap.Perm m) : Built ⟨m⟩ :=
  h.elim fun _ h => ⟨_, h.reorder p⟩

/-! ### Refinement -/

theorem SetGraph.ext' {G H : SetGraph} (h1 : ∀ v, G.V v ↔ H.V v) (h2 : ∀ e, G.E e ↔ H.E e) : G = H := by
  cases G; cases H
  congr 1
  · funext v; exact propext (h1 v)
  · funext v; exact propext (h2 v)

theorem toSet_applyTo {g : DirectedGraph} (h : WF g) (c : GraphCommand) :
    (c.applyTo g).toSet = g.toSet.step c := by
  have h' := h.applyTo c
  apply SetGraph.ext'
  · intro v
    cases c with
    | AddVertex u => exact containsVertex_addVertex g u v
    | RemoveVertex u => exact containsVertex_removeVertex g u v
    | AddEdge a b => exact containsVertex_addEdge h ⟨a, b⟩ v
    | RemoveEdge a b =>
      have := containsVertex_congr (keys_removeEdge g ⟨a, b⟩) v
      exact (Bool.eq_iff_iff.1 this)
  · intro e
    have e1 : (c.applyTo g).toSet.E e ↔ e ∈ inc (c.applyTo g) e.src := h'.containsEdge_iff
    have e2 : g.toSet.E e ↔ e ∈ inc g e.src := h.containsEdge_iff
    rw [e1]
    cases c with
    | AddVertex u =>
      show e ∈ inc (g.addVertex u).2 e.src ↔ _
      rw [inc_addVertex, ← e2]; rfl
    | RemoveVertex u =>
      show e ∈ inc (g.removeVertex u).2 e.src ↔ g.toSet.E e ∧ e.src ≠ u ∧ e.dst ≠ u
      rw [e2, mem_inc_removeVertex]
      constructor
      · rintro ⟨a, b, c⟩
        refine ⟨b, a, ?_⟩
        rintro rfl
        exact c ⟨(h.sym _ _ b).2, .inl rfl⟩
      · rintro ⟨a, b, c⟩
        refine ⟨b, a, ?_⟩
        rintro ⟨d, _⟩
        rcases h.touch _ _ d with f | f
        · exact b f
        · exact c f
    | AddEdge a b =>
      show e ∈ inc (g.addEdge ⟨a, b⟩).2 e.src ↔ g.toSet.E e ∨ e = ⟨a, b⟩
      rw [e2, mem_inc_addEdge h]
      constructor
      · rintro (h | ⟨h, _⟩)
        · exact .inl h
        · exact .inr h
      · rintro (h | rfl)
        · exact .inl h
        · exact .inr ⟨rfl, .inl rfl⟩
    | RemoveEdge a b =>
      show e ∈ inc (g.removeEdge ⟨a, b⟩).2 e.src ↔ g.toSet.E e ∧ e ≠ ⟨a, b⟩
      rw [e2, mem_inc_removeEdge]
      constructor
      · rintro ⟨h1, h2⟩
        exact ⟨h1, by rintro rfl; exact h2 ⟨rfl, .inl rfl⟩⟩
      · rintro ⟨h1, h2⟩
        exact ⟨h1, fun c => h2 c.1⟩

theorem toSet_perm {g : DirectedGraph} (h : WF g) {m : HMap VertexId (List Edge)} (p : g.edgeMap.Perm m) :
    DirectedGraph.toSet ⟨m⟩ = g.toSet := by
  apply SetGraph.ext'
  · intro v
    show DirectedGraph.containsVertex ⟨m⟩ v = true ↔ g.containsVertex v = true
    simp only [containsVertex, containsKey_iff]
    exact ((p.map Prod.fst).mem_iff).symm
  · intro e
    show DirectedGraph.containsEdge ⟨m⟩ e = true ↔ g.containsEdge e = true
    rw [h.containsEdge_iff, (h.perm p).containsEdge_iff, inc_perm h p]

theorem toSet_new : DirectedGraph.new.toSet = SetGraph.empty := by
  apply SetGraph.ext'
  · intro v
    show DirectedGraph.new.containsVertex v = true ↔ False
    simp [DirectedGraph.new, containsVertex, HMap.containsKey]
  · intro e
    show DirectedGraph.new.containsEdge e = true ↔ False
    simp [DirectedGraph.new, containsEdge, containsVertex, HMap.containsKey]

theorem Evolves.toSet {cs : List GraphCommand} {g : DirectedGraph} (h : Evolves cs g) :
    g.toSet = SetGraph.empty.run cs := by
  induction h with
  | new => exact toSet_new
  | apply c h ih =>
    rw [toSet_applyTo h.wf, ih]
    simp [SetGraph.run]
  | reorder h p ih => rw [toSet_perm h.wf p, ih]

theorem toSet_applyCommands {g : DirectedGraph} (h : WF g) (cs : List GraphCommand) :
    (GraphCommand.applyCommands cs g).toSet = g.toSet.run cs := by
  unfold GraphCommand.applyCommands SetGraph.run
  induction cs generalizing g with
  | nil => rfl
  | cons c cs ih =>
    simp only [List.foldl_cons]
    rw [ih (h.applyTo c), toSet_applyTo h]

theorem sameGraph_iff {g h : DirectedGraph} : SameGraph g h ↔ g.toSet = h.toSet := by
  constructor
  · rintro ⟨h1, h2⟩
    apply SetGraph.ext'
    · intro v; show g.containsVertex v = true ↔ h.containsVertex v = true; rw [h1]
    · intro v; show g.containsEdge v = true ↔ h.containsEdge v = true; rw [h2]
  · intro e
    constructor
    · intro v
      rw [Bool.eq_iff_iff]
      exact iff_of_eq (congrFun (congrArg SetGraph.V e) v)
    · intro v
      rw [Bool.eq_iff_iff]
      exact iff_of_eq (congrFun (congrArg SetGraph.E e) v)

end GC
