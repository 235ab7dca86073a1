/- The edge lists of a graph are in insertion order; graphs with the same outbound edges are searched in the same way. -/
import Verif.Spec.Order
import Verif.Model.Equality
import Verif.Proofs.GraphCommands
namespace GC
open HMap DirectedGraph

theorem filter_eq_of_sublist {α : Type} [DecidableEq α] {l m : List α} (hm : m.Nodup) (hs : l.Sublist m) {p : α → Bool}
    (h : ∀ x ∈ m, x ∈ l ↔ p x = true) : l = m.filter p := by
  induction hs with
  | slnil => rfl
  | @cons l m a hs ih =>
    rw [List.nodup_cons] at hm
    have ha : p a = false := by
      rw [Bool.eq_false_iff, ne_eq, ← h a List.mem_cons_self]
      exact fun hc => hm.1 (hs.subset hc)
    rw [List.filter_cons_of_neg (by simp [ha])]
    exact ih hm.2 fun x hx => h x (List.mem_cons_of_mem _ hx)
  | @cons_cons l m a hs ih =>
    rw [List.nodup_cons] at hm
    have ha : p a = true := (h a List.mem_cons_self).1 List.mem_cons_self
    rw [List.filter_cons_of_pos (by simp [ha])]
    congr 1
    refine ih hm.2 fun x hx => ?_
    rw [← h x (List.mem_cons_of_mem _ hx), List.mem_cons]
    constructor
    · exact .inr
    · rintro (rfl | h1)
      · exact absurd hx hm.1
      · exact h1

theorem insertionOrder_append (cs : List GraphCommand) (c : GraphCommand) : insertionOrder (cs ++ [c]) = insertionStep (insertionOrder cs) c := by
  simp [insertionOrder]

theorem insertionStep_nodup {l : List Edge} (h : l.Nodup) (c : GraphCommand) : (insertionStep l c).Nodup := by
  cases c with
  | AddVertex v => exact h
  | AddEdge a b =>
    dsimp only [insertionStep]
    split
    · exact h
    · rename_i hn
      rw [List.nodup_append]
      refine ⟨h, by simp, ?_⟩
      intro a ha b hb hab
      subst hab
      exact hn (List.mem_singleton.1 hb ▸ ha)
  | RemoveEdge a b => exact h.filter _
  | RemoveVertex v => exact h.filter _

theorem insertionOrder_nodup (cs : List GraphCommand) : (insertionOrder cs).Nodup := by
  unfold insertionOrder
  suffices ∀ l : List Edge, l.Nodup → (cs.foldl insertionStep l).Nodup from this [] List.nodup_nil
  induction cs with
  | nil => exact fun _ h => h
  | cons c cs ih => exact fun l h => ih _ (insertionStep_nodup h c)

/-- The edges stored under a vertex are the edges touching it in insertion order. -/
theorem inc_insertionOrder {cs : List GraphCommand} {g : DirectedGraph} (h : Evolves cs g) (v : VertexId) :
    inc g v = (insertionOrder cs).filter fun e => e.Touches v := by
  induction h generalizing v with
  | new => rfl
  | @reorder cs g m he p ih => rw [inc_perm he.wf p]; exact ih v
  | @apply cs g c he ih =>
    have hmem : ∀ e, g.containsEdge e = true ↔ e ∈ insertionOrder cs := by
      intro e
      rw [he.wf.containsEdge_iff, ih, List.mem_filter]
      simp [Edge.Touches]
    rw [insertionOrder_append]
    cases c with
    | AddVertex u =>
      show inc (g.addVertex u).2 v = _
      rw [inc_addVertex]
      exact ih v
    | AddEdge a b =>
      show inc (g.addEdge ⟨a, b⟩).2 v = _
      rw [inc_addEdge, ih]
      dsimp only [insertionStep]
      by_cases hin : (⟨a, b⟩ : Edge) ∈ insertionOrder cs
      · rw [if_neg (by simp [(hmem _).2 hin]), if_pos hin]
      · have hc : g.containsEdge ⟨a, b⟩ = false := by rw [Bool.eq_false_iff, ne_eq, hmem]; exact hin
        rw [if_neg hin, List.filter_append]
        by_cases hv : v = a ∨ v = b
        · rw [if_pos ⟨hc, hv⟩, List.filter_cons_of_pos]
          · rfl
          · exact decide_eq_true (hv.imp Eq.symm Eq.symm)
        · rw [if_neg (fun hh => hv hh.2), List.filter_cons_of_neg]
          · simp
          · exact fun hh => hv ((of_decide_eq_true hh).imp Eq.symm Eq.symm)
    | RemoveEdge a b =>
      show inc (g.removeEdge ⟨a, b⟩).2 v = _
      rw [inc_removeEdge, ih]
      dsimp only [insertionStep]
      split
      · rw [List.filter_filter, List.filter_filter]
        congr 1
        funext e
        exact Bool.and_comm _ _
      · rename_i hv
        rw [List.filter_filter]
        apply List.filter_congr
        intro e _
        by_cases ht : e.Touches v
        · have : e ≠ ⟨a, b⟩ := by
            rintro rfl
            exact hv (ht.imp Eq.symm Eq.symm)
          simp [ht, this]
        · simp [ht]
    | RemoveVertex u =>
      show inc (g.removeVertex u).2 v = _
      have hsub : (inc (g.removeVertex u).2 v).Sublist (inc g v) := by
        rw [removeVertex_eq]
        refine ((foldl_removeEdge _ _).2.1 v).trans ?_
        rw [inc_remove]
        split
        · exact List.nil_sublist _
        · exact List.Sublist.refl _
      dsimp only [insertionStep]
      rw [List.filter_filter]
      have hsub' : (inc (g.removeVertex u).2 v).Sublist (insertionOrder cs) := hsub.trans (by rw [ih]; exact List.filter_sublist)
      refine filter_eq_of_sublist (insertionOrder_nodup cs) hsub' fun x hx => ?_
      rw [mem_inc_removeVertex, he.wf.mem_inc_iff, he.wf.mem_inc_iff, hmem]
      rw [Bool.and_eq_true, decide_eq_true_eq, decide_eq_true_eq]
      unfold Edge.Touches
      constructor
      · rintro ⟨h1, ⟨_, h2⟩, h3⟩
        refine ⟨h2, ?_⟩
        constructor
        · exact fun hc => h3 ⟨⟨hx, .inl hc⟩, h2.imp Eq.symm Eq.symm⟩
        · exact fun hc => h3 ⟨⟨hx, .inr hc⟩, h2.imp Eq.symm Eq.symm⟩
      · rintro ⟨h1, h2, h3⟩
        refine ⟨?_, ⟨hx, h1⟩, fun hc => ?_⟩
        · rintro rfl
          exact h1.elim h2 h3
        · exact hc.1.2.elim h2 h3

theorem outboundEdges_inc (g : DirectedGraph) (v : VertexId) : g.outboundEdges v = (inc g v).filter fun e => e.src = v := rfl
theorem inboundEdges_inc (g : DirectedGraph) (v : VertexId) : g.inboundEdges v = (inc g v).filter fun e => e.dst = v := rfl

/-- Two maps with distinct keys are equal iff they have the same values. -/
theorem eq_iff_get? {a b : DirectedGraph} (ha : WF a) (hb : WF b) : a.eq b = true ↔ ∀ v, get? a.edgeMap v = get? b.edgeMap v := by
  unfold DirectedGraph.eq HMap.eq
  constructor
  · intro h
    split at h
    · cases h
    rename_i hlen
    have hlen : a.edgeMap.length = b.edgeMap.length := not_not.1 hlen
    rw [List.all_eq_true] at h
    have hsub : ∀ v es, get? a.edgeMap v = some es → get? b.edgeMap v = some es := by
      intro v es hv
      have := h _ (get?_mem hv)
      dsimp only at this
      cases hb' : get? b.edgeMap v with
      | none => rw [hb'] at this; cases this
      | some es' => rw [hb'] at this; rw [of_decide_eq_true this]
    have hkeys : HMap.keys a.edgeMap ⊆ HMap.keys b.edgeMap := by
      intro v hv
      rw [← get?_isSome_iff, Option.isSome_iff_exists] at hv ⊢
      exact hv.imp fun es => hsub v es
    have hperm : (HMap.keys a.edgeMap).Perm (HMap.keys b.edgeMap) :=
      (List.subperm_of_subset ha.keys hkeys).perm_of_length_le (by simp [HMap.keys, hlen])
    intro v
    cases hv : get? a.edgeMap v with
    | some es => exact (hsub v es hv).symm
    | none =>
      rw [get?_eq_none_iff] at hv
      exact (get?_eq_none_iff.2 fun hc => hv (hperm.mem_iff.2 hc)).symm
  · intro h
    have hperm : (HMap.keys a.edgeMap).Perm (HMap.keys b.edgeMap) :=
      (List.perm_ext_iff_of_nodup ha.keys hb.keys).2 fun v => by rw [← get?_isSome_iff, ← get?_isSome_iff, h]
    have hlen : a.edgeMap.length = b.edgeMap.length := by simpa [HMap.keys] using hperm.length_eq
    rw [if_neg (not_not.2 hlen), List.all_eq_true]
    intro p hp
    have := (get?_eq_some_iff ha.keys (k := p.1) (v := p.2)).2 hp
    rw [h] at this
    rw [this]
    simp

theorem get?_eq_iff_inc {a b : DirectedGraph} :
    (∀ v, get? a.edgeMap v = get? b.edgeMap v) ↔ (∀ v, a.containsVertex v = b.containsVertex v) ∧ ∀ v, inc a v = inc b v := by
  unfold inc containsVertex HMap.containsKey
  constructor
  · exact fun h => ⟨fun v => by rw [h], fun v => by rw [h]⟩
  · rintro ⟨h1, h2⟩ v
    have h1 := h1 v
    have h2 := h2 v
    cases ha : get? a.edgeMap v with
    | none =>
      cases hb : get? b.edgeMap v with
      | none => rfl
      | some y => rw [ha, hb] at h1; cases h1
    | some x =>
      cases hb : get? b.edgeMap v with
      | none => rw [ha, hb] at h1; cases h1
      | some y => rw [ha, hb] at h2; exact congrArg some h2

/-- The edges listed by `edges()` that leave a vertex are its outbound edges, in the same order. -/
theorem edges_filter_src {g : DirectedGraph} (h : WF g) (v : VertexId) : g.edges.filter (fun e => e.src = v) = g.outboundEdges v := by
  have key : ∀ m : HMap VertexId (List Edge), (HMap.keys m).Nodup →
      (m.flatMap fun p => p.2.filter fun e => p.1 = e.src).filter (fun e => e.src = v) = ((get? m v).getD []).filter fun e => e.src = v := by
    intro m
    induction m with
    | nil => intro _; rfl
    | cons p m ih =>
      intro hk
      have hk' : p.1 ∉ HMap.keys m ∧ (HMap.keys m).Nodup := List.nodup_cons.1 hk
      rw [List.flatMap_cons, List.filter_append, ih hk'.2, get?_cons]
      by_cases hp : p.1 = v
      · subst hp
        rw [if_pos rfl, get?_eq_none_iff.2 hk'.1]
        simp only [Option.getD_none, List.filter_nil, List.append_nil, Option.getD_some, List.filter_filter]
        apply List.filter_congr
        intro e _
        by_cases he : e.src = p.1
        · simp [he]
        · simp [he]
      · rw [if_neg hp]
        have : (p.2.filter fun e => p.1 = e.src).filter (fun e => e.src = v) = [] := by
          rw [List.filter_filter, List.filter_eq_nil_iff]
          intro e _ hc
          simp only [Bool.and_eq_true, decide_eq_true_eq] at hc
          exact hp (hc.2.trans hc.1)
        rw [this, List.nil_append]
  exact key g.edgeMap h.keys

theorem insertionOrder_asCommands {g : DirectedGraph} (h : WF g) : insertionOrder (GraphCommand.asCommands g) = g.edges := by
  rw [asCommands_eq]
  unfold insertionOrder
  rw [List.foldl_append]
  have h1 : ∀ (vs : List VertexId) (l : List Edge), (vs.map GraphCommand.AddVertex).foldl insertionStep l = l := by
    intro vs
    induction vs with
    | nil => exact fun _ => rfl
    | cons v vs ih => exact fun l => ih l
  rw [h1]
  have h2 : ∀ (es l : List Edge), (l ++ es).Nodup → (es.map fun e => GraphCommand.AddEdge e.src e.dst).foldl insertionStep l = l ++ es := by
    intro es
    induction es with
    | nil => intro l _; simp
    | cons e es ih =>
      intro l hl
      have hn : e ∉ l := fun hc => by
        rw [List.nodup_append] at hl
        exact hl.2.2 e hc e List.mem_cons_self rfl
      rw [List.map_cons, List.foldl_cons]
      have : insertionStep l (.AddEdge e.src e.dst) = l ++ [e] := by
        show (if e ∈ l then l else l ++ [e]) = _
        rw [if_neg hn]
      rw [this, ih _ (by simpa using hl)]
      simp
  exact h2 _ _ (by simpa using h.nodup_edges)

end GC
