/-
Proofs about the model of max_flow.
-/
import Verif.Model.MaxFlow
import Verif.Proofs.Flow
import Verif.Proofs.Iter
import Verif.Proofs.HMap
namespace GC
namespace MaxFlow
open DirectedGraph Path Direction

/-- The flow map holds the flow `f` and the capacities of all edges. -/
def FlowRep (g : DirectedGraph) (cap : Edge → UInt64) (m : FlowMap) (f : Edge → Nat) : Prop :=
  (HMap.keys m).Nodup ∧ ∀ e, HMap.get? m e = if g.containsEdge e = true then some (f e, (cap e).toNat) else none

theorem initialFlow_rep {g : DirectedGraph} (hw : WF g) (cap : Edge → UInt64) : FlowRep g cap (initialFlow g cap) (fun _ => 0) := by
  have key : ∀ (es : List Edge) (m : FlowMap), (HMap.keys m).Nodup →
      (HMap.keys (es.foldl (fun m e => HMap.insert m e (0, (cap e).toNat)) m)).Nodup ∧
      ∀ e, HMap.get? (es.foldl (fun m e => HMap.insert m e (0, (cap e).toNat)) m) e =
        if e ∈ es then some (0, (cap e).toNat) else HMap.get? m e := by
    intro es
    induction es with
    | nil => intro m hm; exact ⟨hm, by simp⟩
    | cons a es ih =>
      intro m hm
      obtain ⟨h1, h2⟩ := ih (HMap.insert m a (0, (cap a).toNat)) (HMap.nodup_keys_insert hm _ _)
      refine ⟨h1, fun e => ?_⟩
      rw [List.foldl_cons, h2, HMap.get?_insert]
      by_cases he : e ∈ es
      · simp [he]
      · by_cases ha : e = a
        · subst ha; simp
        · simp [he, ha]
  obtain ⟨h1, h2⟩ := key g.edges [] (by simp [HMap.keys])
  refine ⟨h1, fun e => ?_⟩
  unfold initialFlow
  rw [h2]
  simp only [hw.mem_edges, HMap.get?_nil]

/-- A path along forward edges only. -/
def fwd (l : List VertexId) : AugmentingPath := ⟨l.map fun v => (v, Forward)⟩

theorem edges_fwd (l : List VertexId) : (fwd l).edges = (edgesOf l).map fun e => (e, Forward) := by
  unfold AugmentingPath.edges fwd
  induction l with
  | nil => rfl
  | cons a l ih =>
    rcases l with _ | ⟨b, l⟩
    · rfl
    · simp only [List.map_cons, List.drop_succ_cons, List.drop_zero, List.zip_cons_cons, edgesOf] at ih ⊢
      rw [ih]

theorem containsVertex_fwd (l : List VertexId) (v : VertexId) : (fwd l).containsVertex v = decide (v ∈ l) := by
  unfold AugmentingPath.containsVertex fwd
  rw [Bool.eq_iff_iff, List.find?_isSome]
  simp

theorem append_fwd (l : List VertexId) (v : VertexId) : (fwd l).append v Forward = fwd (l ++ [v]) := by
  simp [AugmentingPath.append, fwd]

theorem last_fwd (l : List VertexId) (v : VertexId) (h : l.getLast? = some v) : (fwd l).last = some (v, Forward) := by
  simp [AugmentingPath.last, fwd, List.getLast?_map, h]

/-- Only forward edges are followed. -/
theorem pushNeighbours_fwd {g : DirectedGraph} (hw : WF g) (l : List VertexId) (v : VertexId) (h : l.getLast? = some v) (q : List AugmentingPath) :
    pushNeighbours g (fwd l) v ⟨q⟩ = ⟨q ++ (pathChildren g ⟨l⟩).map fun p => fwd p.vertices⟩ := by
  have hv : v ∈ l := List.mem_of_getLast? h
  have key : ∀ (ns : List (VertexId × Direction)) (q : List AugmentingPath),
      ns.foldl (fun qu q => qu.push ((fwd l).append q.1 q.2)) (⟨q⟩ : Queue AugmentingPath) = ⟨q ++ ns.map fun n => (fwd l).append n.1 n.2⟩ := by
    intro ns
    induction ns with
    | nil => simp
    | cons n ns ih => intro q; rw [List.foldl_cons, Queue.push, ih]; simp
  unfold pushNeighbours
  rw [key]
  have e1 : (neighbours g v).filter (fun q => !(fwd l).containsVertex q.1) =
      ((g.outs v).filter fun v => decide (v ∉ l)).map fun v => (v, Forward) := by
    unfold neighbours
    rw [List.filter_append]
    have e2 : ((g.inboundEdges v).map (fun e => (e.dst, Backward))).filter (fun q => !(fwd l).containsVertex q.1) = [] := by
      rw [List.filter_eq_nil_iff]
      intro q hq
      obtain ⟨e, he, rfl⟩ := List.mem_map.1 hq
      have := (hw.mem_inbound.1 he).2
      simp [containsVertex_fwd, this, hv]
    rw [e2, List.append_nil]
    unfold outs
    simp only [containsVertex_fwd, List.filter_map, List.map_map]
    congr 1
    apply List.filter_congr
    intro e _
    simp
  rw [e1]
  simp only [pathChildren, Path.last, h, List.map_map]
  congr 1
  simp [Function.comp_def, append_fwd, Path.append]

theorem residuals_fwd {g : DirectedGraph} {cap : Edge → UInt64} {m : FlowMap} {f : Edge → Nat} (hm : FlowRep g cap m f)
    (hf : ∀ e, g.containsEdge e = true → f e ≤ (cap e).toNat) (es : List Edge) (he : ∀ e ∈ es, g.containsEdge e = true) :
    residuals m (es.map fun e => (e, Forward)) = .done (es.map fun e => (cap e).toNat - f e) := by
  induction es with
  | nil => rfl
  | cons e es ih =>
    have h1 := he e (by simp)
    simp only [List.map_cons, residuals, edgeResidualCapacity, hm.2 e, h1, if_true, Run.unwrap_some, Run.bind_done, subU64, hf e h1,
      ih fun e h => he e (by simp [h])]

theorem residualCapacity_fwd {g : DirectedGraph} {cap : Edge → UInt64} {m : FlowMap} {f : Edge → Nat} (hm : FlowRep g cap m f)
    (hf : ∀ e, g.containsEdge e = true → f e ≤ (cap e).toNat) {l : List VertexId} (hl : l.IsChain (Adj g)) (h2 : edgesOf l ≠ []) :
    ∃ c, residualCapacity (fwd l) m = .done c ∧ (∀ e ∈ edgesOf l, f e + c ≤ (cap e).toNat) ∧ ∃ e ∈ edgesOf l, f e + c = (cap e).toNat := by
  have hes : ∀ e ∈ edgesOf l, g.containsEdge e = true := fun e he => edgesOf_adj hl he
  unfold residualCapacity
  rw [edges_fwd, residuals_fwd hm hf _ hes, Run.bind_done]
  rcases hmin : ((edgesOf l).map fun e => (cap e).toNat - f e).min? with _ | c
  · rw [List.min?_eq_none_iff, List.map_eq_nil_iff] at hmin
    exact absurd hmin h2
  · refine ⟨c, rfl, ?_, ?_⟩
    · intro e he
      have := (List.min?_eq_some_iff.1 hmin).2 _ (List.mem_map.2 ⟨e, he, rfl⟩)
      have := hf e (hes e he)
      omega
    · obtain ⟨e, he, h⟩ := List.mem_map.1 (List.min?_eq_some_iff.1 hmin).1
      have := hf e (hes e he)
      exact ⟨e, he, by omega⟩

/-- The vertices of a path. -/
def unfwd (p : AugmentingPath) : Path := ⟨p.path.map Prod.fst⟩

theorem unfwd_fwd (l : List VertexId) : unfwd (fwd l) = ⟨l⟩ := by simp [unfwd, fwd, Function.comp_def]

/-- Work left in the queue. -/
def work (g : DirectedGraph) (q : Queue AugmentingPath) : Nat :=
  (q.queue.flatMap fun p => nodesAux (pathChildren g) (g.vertices.length + 1 - (unfwd p).vertices.length) (unfwd p)).length

theorem edgesOf_ne_nil {l : List VertexId} {s t : VertexId} (hs : l.head? = some s) (ht : l.getLast? = some t) (hst : s ≠ t) : edgesOf l ≠ [] := by
  rcases l with _ | ⟨a, _ | ⟨b, l⟩⟩
  · cases hs
  · simp at hs ht; exact absurd (hs.symm.trans ht) hst
  · simp [edgesOf]

/-- An augmenting path: a simple path whose edges all have residual capacity. -/
def Augments (g : DirectedGraph) (cap : Edge → UInt64) (f : Edge → Nat) (s t : VertexId) (l : List VertexId) : Prop :=
  SimplePathFrom g s l ∧ l.getLast? = some t ∧ ∀ e ∈ edgesOf l, f e < (cap e).toNat

theorem find_spec {g : DirectedGraph} (hw : WF g) {cap : Edge → UInt64} {m : FlowMap} {f : Edge → Nat} (hm : FlowRep g cap m f)
    (hf : ∀ e, g.containsEdge e = true → f e ≤ (cap e).toNat) {s t : VertexId} (hst : s ≠ t) :
    ∃ r, Returns (findAugmentingPath g m s t) r ∧ (r = none → ∀ l, ¬ Augments g cap f s t l) ∧
      ∀ p c, r = some (p, c) → ∃ l, p = fwd l ∧ SimplePathFrom g s l ∧ l.getLast? = some t ∧ 0 < c ∧
        (∀ e ∈ edgesOf l, f e + c ≤ (cap e).toNat) ∧ (∃ e ∈ edgesOf l, f e + c = (cap e).toNat) ∧
        ∀ l', Augments g cap f s t l' → l.length ≤ l'.length := by
  refine returns_loop_of_measure
    (I := fun q => ∃ ls : List (List VertexId), q.queue = ls.map fwd ∧ (∀ l ∈ ls, SimplePathFrom g s l) ∧
      (∀ l', Augments g cap f s t l' → ∃ l ∈ ls, l <+: l') ∧ ls.Pairwise (fun a b => a.length ≤ b.length) ∧
      ∀ a ∈ ls, ∀ b ∈ ls, b.length ≤ a.length + 1) (μ := work g) _ ?_ _ ?_
  · rintro ⟨q⟩ ⟨ls, h1, h2, h3, hs1, hs2⟩
    simp only at h1
    subst h1
    rcases ls with _ | ⟨l, ls⟩
    · right
      refine ⟨none, .ret _, fun _ l hl => ?_, fun p c h => by cases h⟩
      obtain ⟨l', h, _⟩ := h3 l hl
      cases h
    · have hsim := h2 l (by simp)
      obtain ⟨v, hv⟩ := hsim.last
      have hpop : Queue.pop (⟨(l :: ls).map fwd⟩ : Queue AugmentingPath) = some (fwd l, ⟨ls.map fwd⟩) := rfl
      have hcont : (∃ c, checkPath m t (fwd l) v = .done (some c)) ∨ checkPath m t (fwd l) v = .done none := by
        unfold checkPath
        split
        · rename_i hvt
          obtain ⟨c, hc, _⟩ := residualCapacity_fwd hm hf hsim.1 (edgesOf_ne_nil hsim.2.1 hv (hvt ▸ hst))
          rw [hc, Run.bind_done]
          split
          · exact .inl ⟨c, rfl⟩
          · exact .inr rfl
        · exact .inr rfl
      rcases hcont with ⟨c, hc⟩ | hc
      · right
        refine ⟨some (fwd l, c), ?_, fun h => (by cases h), ?_⟩
        · unfold nextStep
          rw [hpop]
          simp only [last_fwd l v hv, Run.unwrap_some, Run.bind_done, hc]
          exact .lift_done _
        · rintro p c' ⟨⟩
          refine ⟨l, rfl, hsim, ?_⟩
          unfold checkPath at hc
          split at hc
          · rename_i hvt
            subst hvt
            obtain ⟨c', hc', h4, h5⟩ := residualCapacity_fwd hm hf hsim.1 (edgesOf_ne_nil hsim.2.1 hv hst)
            rw [hc', Run.bind_done] at hc
            split at hc
            · rename_i hpos
              cases hc
              refine ⟨hv, hpos, h4, h5, fun l' hl' => ?_⟩
              obtain ⟨l0, k1, k2⟩ := h3 l' hl'
              refine Nat.le_trans ?_ k2.length_le
              rcases List.mem_cons.1 k1 with rfl | k1
              · exact Nat.le_refl _
              · exact (List.pairwise_cons.1 hs1).1 l0 k1
            · cases hc
          · cases hc
      · left
        refine ⟨⟨ls.map fwd ++ (pathChildren g ⟨l⟩).map fun p => fwd p.vertices⟩, ?_, ?_, ?_⟩
        · unfold nextStep
          rw [hpop]
          simp only [last_fwd l v hv, Run.unwrap_some, Run.bind_done, hc, pushNeighbours_fwd hw l v hv]
          exact .lift_done _
        · have hch : ∀ x ∈ (pathChildren g ⟨l⟩).map Path.vertices, x.length = l.length + 1 := by
            intro x hx
            obtain ⟨p, hp, rfl⟩ := List.mem_map.1 hx
            obtain ⟨u, w, _, _, _, e⟩ := (mem_pathChildren hw).1 hp
            rw [e]
            simp [Path.append]
          have hle : ∀ x ∈ ls, l.length ≤ x.length := (List.pairwise_cons.1 hs1).1
          have hge : ∀ x ∈ ls, x.length ≤ l.length + 1 := fun x hx => hs2 l (by simp) x (by simp [hx])
          refine ⟨ls ++ (pathChildren g ⟨l⟩).map Path.vertices, by simp [Function.comp_def], ?_, ?_, ?_, ?_⟩
          rotate_left 2
          · refine List.pairwise_append.2 ⟨(List.pairwise_cons.1 hs1).2, ?_, ?_⟩
            · refine List.pairwise_of_forall_mem_list ?_
              intro a ha b hb
              rw [hch a ha, hch b hb]
            · intro a ha b hb
              rw [hch b hb]
              exact hge a ha
          · intro a ha b hb
            have h1 : l.length ≤ a.length := (List.mem_append.1 ha).elim (hle a) fun h => by rw [hch a h]; omega
            have h2 : b.length ≤ l.length + 1 := (List.mem_append.1 hb).elim (hge b) fun h => by rw [hch b h]
            omega
          · intro x hx
            rcases List.mem_append.1 hx with hx | hx
            · exact h2 x (by simp [hx])
            · obtain ⟨p, hp, rfl⟩ := List.mem_map.1 hx
              exact (pathChildren_rank hw s ⟨l⟩ hsim p hp).1
          · intro l' hl'
            obtain ⟨l0, h4, h5⟩ := h3 l' hl'
            rcases List.mem_cons.1 h4 with rfl | h4
            · obtain ⟨r, rfl⟩ := h5
              rcases r with _ | ⟨w, r⟩
              · exfalso
                rw [List.append_nil] at hl'
                obtain ⟨k1, k2, k3⟩ := hl'
                rw [hv] at k2
                cases k2
                unfold checkPath at hc
                rw [if_pos rfl] at hc
                obtain ⟨c, hc', h4, e, he, h5⟩ := residualCapacity_fwd hm hf hsim.1 (edgesOf_ne_nil hsim.2.1 hv hst)
                have := k3 e he
                rw [hc', Run.bind_done, if_pos (by omega)] at hc
                cases hc
              · refine ⟨l0 ++ [w], List.mem_append_right _ (List.mem_map.2 ⟨⟨l0 ++ [w]⟩, ?_, rfl⟩), ⟨r, by simp⟩⟩
                refine (mem_pathChildren hw).2 ⟨v, w, hv, ?_, ?_, rfl⟩
                · have := hl'.1.1
                  rw [List.isChain_append] at this
                  exact this.2.2 v (by rw [hv]; rfl) w (by simp)
                · have := hl'.1.2.2
                  rw [List.nodup_append] at this
                  intro hm'
                  exact this.2.2 w hm' w (by simp) rfl
            · exact ⟨l0, List.mem_append_left _ h4, h5⟩
        · unfold work
          have := nodesAux_unfold (rank := fun p : Path => g.vertices.length + 1 - p.vertices.length) (pathChildren_rank hw s) ⟨l⟩ hsim
          simp only at this
          simp only [List.map_cons, List.flatMap_cons, List.flatMap_append, List.length_append, unfwd_fwd, this, List.length_cons,
            List.flatMap_map]
          have e : ((pathChildren g ⟨l⟩).flatMap fun a => nodesAux (pathChildren g) (g.vertices.length + 1 - a.vertices.length) ⟨a.vertices⟩) =
            (pathChildren g ⟨l⟩).flatMap fun y => nodesAux (pathChildren g) (g.vertices.length + 1 - y.vertices.length) y := rfl
          rw [e]
          omega
  · refine ⟨[[s]], rfl, ?_, ?_, by simp, by simp⟩
    · intro l hl
      simp only [List.mem_singleton] at hl
      subst hl
      exact ⟨by simp, rfl, by simp⟩
    · rintro l' ⟨⟨_, h, _⟩, _⟩
      rcases l' with _ | ⟨a, l'⟩
      · cases h
      · simp only [List.head?_cons, Option.some.injEq] at h
        subst h
        exact ⟨[a], by simp, ⟨l', rfl⟩⟩

theorem updateEdges_fwd {g : DirectedGraph} {cap : Edge → UInt64} (d : Nat) (es : List Edge) (hn : es.Nodup)
    (he : ∀ e ∈ es, g.containsEdge e = true) {m : FlowMap} {f : Edge → Nat} (hm : FlowRep g cap m f)
    (hd : ∀ e ∈ es, f e + d ≤ (cap e).toNat) :
    ∃ m', updateEdges d (es.map fun e => (e, Forward)) m = .done m' ∧ FlowRep g cap m' (bumpAll d es f) := by
  induction es generalizing m f with
  | nil => exact ⟨m, rfl, hm⟩
  | cons e es ih =>
    rw [List.nodup_cons] at hn
    have h1 := he e (by simp)
    have h2 := hd e (by simp)
    have h3 := (cap e).toNat_lt
    have e1 : updateEdge m d (e, Forward) = .done (HMap.insert m e (f e + d, (cap e).toNat)) := by
      simp only [updateEdge, hm.2 e, h1, if_true, addU64]
      rw [if_pos (by omega), Run.bind_done]
    have hm' : FlowRep g cap (HMap.insert m e (f e + d, (cap e).toNat)) (bump d f e) := by
      refine ⟨HMap.nodup_keys_insert hm.1 _ _, fun x => ?_⟩
      rw [HMap.get?_insert]
      by_cases hx : x = e
      · subst hx
        simp [h1, bump]
      · rw [hm.2 x]
        simp [bump, hx]
    obtain ⟨m', h4, h5⟩ := ih hn.2 (fun x hx => he x (by simp [hx])) hm' (by
      intro x hx
      have hxe : x ≠ e := fun h => hn.1 (h ▸ hx)
      simp only [bump, hxe, if_false]
      exact hd x (by simp [hx]))
    refine ⟨m', ?_, h5⟩
    simp only [List.map_cons, updateEdges, e1, Run.bind_done, h4]

/-- Invariant of the main loop. -/
structure FlowInv (g : DirectedGraph) (cap : Edge → UInt64) (s t : VertexId) (f : Edge → Nat) (n : Nat) : Prop where
  le : ∀ e, g.containsEdge e = true → f e ≤ (cap e).toNat
  net : ∀ v, g.containsVertex v = true → v ≠ s → v ≠ t → netOut g f v = 0
  value : netOut g f s = n
  intoStart : ∀ e, e.dst = s → f e = 0
  outOfEnd : ∀ e, e.src = t → f e = 0
  zero : n = 0 → ∀ e, f e = 0
  cross : ∀ S, crossOut g f S ≤ n * (g.vertexCount / 2)

theorem path_length_le {g : DirectedGraph} (hw : WF g) {s t : VertexId} (hst : s ≠ t) {l : List VertexId} (hl : SimplePathFrom g s l)
    (ht : l.getLast? = some t) : l.length ≤ g.vertexCount := by
  have hsub : l ⊆ g.vertices := by
    obtain ⟨h1, h2, _⟩ := hl
    rcases l with _ | ⟨a, _ | ⟨b, l⟩⟩
    · cases h2
    · simp only [List.head?_cons, Option.some.injEq, List.getLast?_singleton] at h2 ht
      exact absurd (h2.symm.trans ht) hst
    · intro v hv
      rcases List.mem_cons.1 hv with rfl | hv
      · exact (hw.adj_vertex (List.isChain_cons_cons.1 h1).1).1
      · obtain ⟨l1, l2, e⟩ := List.append_of_mem hv
        rw [e, ← List.cons_append] at h1
        obtain ⟨l', x, e'⟩ := (List.eq_nil_or_concat (a :: l1)).resolve_left (by simp)
        rw [e', List.concat_eq_append, List.isChain_append] at h1
        exact (hw.adj_vertex (h1.2.2 x (by simp) v (by simp))).2
  have := (List.subperm_of_subset hl.2.2 hsub).length_le
  simpa [DirectedGraph.vertices, vertexCount, HMap.keys] using this

theorem FlowInv.init (g : DirectedGraph) (cap : Edge → UInt64) (s t : VertexId) : FlowInv g cap s t (fun _ => 0) 0 :=
  ⟨fun _ _ => Nat.zero_le _, fun v _ _ _ => by simp [netOut, outFlow, inFlow], by simp [netOut, outFlow, inFlow], fun _ _ => rfl, fun _ _ => rfl,
    fun _ _ => rfl, fun S => by simp [crossOut]⟩

theorem FlowInv.feasible {g : DirectedGraph} {cap : Edge → UInt64} {s t : VertexId} {f : Edge → Nat} {n : Nat} (h : FlowInv g cap s t f n) :
    Feasible g cap s t f := feasible_net.2 ⟨h.le, h.net⟩

theorem FlowInv.augment {g : DirectedGraph} (hw : WF g) {cap : Edge → UInt64} {s t : VertexId} (hst : s ≠ t) {f : Edge → Nat} {n c : Nat}
    (h : FlowInv g cap s t f n) {l : List VertexId} (hl : SimplePathFrom g s l) (ht : l.getLast? = some t) (hc : 0 < c)
    (hr : ∀ e ∈ edgesOf l, f e + c ≤ (cap e).toNat) : FlowInv g cap s t (bumpAll c (edgesOf l) f) (n + c) := by
  have hnd := edgesOf_nodup hl.2.2
  have hnet := netOut_bumpAll hw c f l hl.1 s t hl.2.1 ht
  refine ⟨?_, ?_, ?_, ?_, ?_, ?_, ?_⟩
  · intro e he
    by_cases hm : e ∈ edgesOf l
    · rw [bumpAll_mem _ _ hnd _ _ hm]
      exact hr e hm
    · rw [bumpAll_notMem _ _ _ _ hm]
      exact h.le e he
  · intro v hv hs ht
    rw [hnet, if_neg hs, if_neg ht, h.net v hv hs ht]
    rfl
  · rw [hnet, if_pos rfl, if_neg hst, h.value]
    simp
  · intro e he
    rw [bumpAll_notMem, h.intoStart e he]
    intro hm
    have h1 := (edgesOf_mem hm).2
    obtain ⟨_, h2, h3⟩ := hl
    rcases l with _ | ⟨a, l⟩
    · cases h2
    · simp only [List.head?_cons, Option.some.injEq] at h2
      rw [List.nodup_cons] at h3
      rw [he, ← h2] at h1
      exact h3.1 h1
  · intro e he
    rw [bumpAll_notMem, h.outOfEnd e he]
    intro hm
    have h1 := (edgesOf_mem hm).1
    obtain ⟨_, _, h3⟩ := hl
    rcases List.eq_nil_or_concat l with rfl | ⟨l', x, e'⟩
    · cases ht
    · rw [List.concat_eq_append] at e'
      subst e'
      simp only [List.getLast?_append, List.getLast?_singleton, Option.some_or, Option.some.injEq] at ht
      rw [List.dropLast_concat, he, ← ht] at h1
      rw [List.nodup_append] at h3
      exact h3.2.2 x h1 x (by simp) rfl
  · intro h0
    omega
  · intro S
    have h1 := crossOut_bumpAll g S c (edgesOf l) f
    have h2 := countP_leaving S l s hl.2.1
    have h3 := path_length_le hw hst hl ht
    have h4 := h.cross S
    have h5 : (edgesOf l).countP (fun e => S e.src && !S e.dst) ≤ g.vertexCount / 2 := by omega
    have h6 := Nat.mul_le_mul_left c h5
    rw [Nat.add_mul]
    omega

/-- Sum of all capacities. -/
def totalCapacity (g : DirectedGraph) (cap : Edge → UInt64) : Nat := ∑ e ∈ g.edges.toFinset, (cap e).toNat

theorem FlowInv.le_total {g : DirectedGraph} (hw : WF g) {cap : Edge → UInt64} {s t : VertexId} (hst : s ≠ t) {f : Edge → Nat} {n : Nat}
    (h : FlowInv g cap s t f n) : n ≤ totalCapacity g cap := by
  have h1 := h.feasible.le_cut hw (S := fun v => decide (v ≠ t)) ⟨by simpa using hst, by simp⟩
  rw [h.value] at h1
  have h2 : cutCapacity g cap (fun v => decide (v ≠ t)) ≤ totalCapacity g cap :=
    Finset.sum_le_sum_of_subset (Finset.filter_subset _ _)
  omega

/-- One round of the main loop. -/
theorem step_spec {g : DirectedGraph} (hw : WF g) {cap : Edge → UInt64} {s t : VertexId} (hst : s ≠ t) {m : FlowMap} {f : Edge → Nat} {n : Nat}
    (hm : FlowRep g cap m f) (h : FlowInv g cap s t f n) :
    (Returns (step g s t (m, n)) (.inr (n, m)) ∧ ∀ l, ¬ Augments g cap f s t l) ∨
    (∃ m' f' n', FlowRep g cap m' f' ∧ FlowInv g cap s t f' n' ∧ n < n' ∧
      ((n' < 2 ^ 64 ∧ Returns (step g s t (m, n)) (.inl (m', n'))) ∨ (2 ^ 64 ≤ n' ∧ Panics (step g s t (m, n))))) := by
  obtain ⟨r, h1, h2, h3⟩ := find_spec hw hm h.le hst
  rcases r with _ | ⟨p, c⟩
  · exact .inl ⟨Returns.bind h1 (.ret _), h2 rfl⟩
  · right
    obtain ⟨l, rfl, k1, k2, k3, k4, _⟩ := h3 p c rfl
    obtain ⟨m', k5, k6⟩ := updateEdges_fwd c (edgesOf l) (edgesOf_nodup k1.2.2) (fun e he => edgesOf_adj k1.1 he) hm k4
    refine ⟨m', _, n + c, k6, h.augment hw hst k1 k2 k3 k4, by omega, ?_⟩
    have e : updateFlow m (fwd l) c = .done m' := by
      unfold updateFlow
      rw [edges_fwd, k5]
    by_cases hlt : n + c < 2 ^ 64
    · refine .inl ⟨hlt, Returns.bind h1 ?_⟩
      simp only [e, Run.bind_done, addU64, hlt, if_true]
      exact .lift_done _
    · refine .inr ⟨by omega, Panics.bind_right h1 ?_⟩
      simp only [e, Run.bind_done, addU64, hlt, if_false]
      exact ⟨0, fun _ _ => rfl⟩

/-- The result of the algorithm: a flow that no path can augment. -/
def Result (g : DirectedGraph) (cap : Edge → UInt64) (s t : VertexId) (r : Nat × FlowMap) : Prop :=
  ∃ f, FlowRep g cap r.2 f ∧ FlowInv g cap s t f r.1 ∧ ∀ l, ¬ Augments g cap f s t l

theorem maxFlow_spec {g : DirectedGraph} (hw : WF g) (cap : Edge → UInt64) {s t : VertexId} (hst : s ≠ t) :
    (∃ r, Returns (maxFlow g cap s t) r ∧ Result g cap s t r ∧ r.1 < 2 ^ 64) ∨
    (Panics (maxFlow g cap s t) ∧ ∃ f n, 2 ^ 64 ≤ n ∧ FlowInv g cap s t f n) := by
  suffices H : ∀ k m f n, FlowRep g cap m f → FlowInv g cap s t f n → n < 2 ^ 64 → totalCapacity g cap - n = k →
      (∃ r, LoopTo (step g s t) (m, n) r ∧ Result g cap s t r ∧ r.1 < 2 ^ 64) ∨
      (LoopPanics (step g s t) (m, n) ∧ ∃ f n, 2 ^ 64 ≤ n ∧ FlowInv g cap s t f n) by
    rcases H _ _ _ _ (initialFlow_rep hw cap) (FlowInv.init g cap s t) (by decide) rfl with ⟨r, h1, h2⟩ | ⟨h1, h2⟩
    · exact .inl ⟨r, h1.returns, h2⟩
    · exact .inr ⟨h1.panics, h2⟩
  intro k
  induction k using Nat.strongRecOn with
  | _ k ih =>
    intro m f n hm hf hlt hk
    rcases step_spec hw hst hm hf with ⟨h1, h2⟩ | ⟨m', f', n', h1, h2, h3, h4⟩
    · exact .inl ⟨_, .stop h1, ⟨f, hm, hf, h2⟩, hlt⟩
    · rcases h4 with ⟨h4, h5⟩ | ⟨h4, h5⟩
      · have := h2.le_total hw hst
        rcases ih (totalCapacity g cap - n') (by omega) m' f' n' h1 h2 h4 rfl with ⟨r, k1, k2⟩ | ⟨k1, k2⟩
        · exact .inl ⟨r, .next h5 k1, k2⟩
        · exact .inr ⟨.next h5 k1, k2⟩
      · exact .inr ⟨.stop h5, f', n', h4, h2⟩

/-- Unsaturated reachability does not lead to the target when no path augments. -/
theorem no_reach {g : DirectedGraph} {cap : Edge → UInt64} {f : Edge → Nat} {s t : VertexId} (h : ∀ l, ¬ Augments g cap f s t l) :
    ¬ Relation.ReflTransGen (fun u v => Adj g u v ∧ f ⟨u, v⟩ < (cap ⟨u, v⟩).toNat) s t := by
  intro hr
  obtain ⟨l, h1, h2, h3, h4⟩ := exists_simple hr
  refine h l ⟨⟨h1.imp fun _ _ h => h.1, h2, h4⟩, h3, ?_⟩
  intro e he
  clear h2 h3 h4
  induction l with
  | nil => cases he
  | cons a l ih =>
    rcases l with _ | ⟨b, l⟩
    · cases he
    · rw [edgesOf, List.mem_cons] at he
      rw [List.isChain_cons_cons] at h1
      rcases he with rfl | he
      · exact h1.1.2
      · exact ih h1.2 he

end MaxFlow
end GC
