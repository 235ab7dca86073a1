/-
max_flow and edges of capacity 0: they are followed in vain.
-/
import Verif.Proofs.Scaled
namespace GC
namespace MaxFlow
open DirectedGraph Path Direction

/-- `g'` is `g` without the edge `x`; the order of the other edges is the same. -/
structure Without (g g' : DirectedGraph) (x : Edge) : Prop where
  out : ∀ v, g'.outboundEdges v = (g.outboundEdges v).filter fun e => e ≠ x
  mem : ∀ e, g'.containsEdge e = true ↔ g.containsEdge e = true ∧ e ≠ x

/-- The path does not use the edge. -/
def avoids (x : Edge) (l : List VertexId) : Bool := decide (x ∉ edgesOf l)

variable {g g' : DirectedGraph} {x : Edge}

theorem edgesOf_snoc {l : List VertexId} {v : VertexId} (hv : l.getLast? = some v) (w : VertexId) : edgesOf (l ++ [w]) = edgesOf l ++ [⟨v, w⟩] := by
  induction l with
  | nil => simp at hv
  | cons a l ih =>
    rcases l with _ | ⟨b, l⟩
    · simp at hv
      subst hv
      rfl
    · rw [List.getLast?_cons_cons] at hv
      have := ih hv
      simp only [List.cons_append, edgesOf] at this ⊢
      rw [this]

theorem outs_without (hw : WF g) (h : Without g g' x) (v : VertexId) : g'.outs v = (g.outs v).filter fun w => decide ((⟨v, w⟩ : Edge) ≠ x) := by
  unfold outs
  rw [h.out, List.filter_map]
  congr 1
  apply List.filter_congr
  intro e he
  have := (hw.mem_outbound.1 he).2
  obtain ⟨a, b⟩ := e
  simp only at this
  subst this
  rfl

theorem children_avoid (hw : WF g) (h : Without g g' x) {l : List VertexId} {v : VertexId} (hv : l.getLast? = some v) (ha : avoids x l = true) :
    ((pathChildren g ⟨l⟩).map Path.vertices).filter (avoids x) = (pathChildren g' ⟨l⟩).map Path.vertices := by
  simp only [pathChildren, Path.last, hv, List.map_map, outs_without hw h v, List.filter_map, List.filter_filter]
  congr 1
  apply List.filter_congr
  intro w _
  simp only [avoids, decide_eq_true_eq] at ha
  simp only [Function.comp_apply, Path.append, avoids, edgesOf_snoc hv]
  rw [Bool.eq_iff_iff]
  simp only [List.mem_append, List.mem_singleton, Bool.and_eq_true, decide_eq_true_eq, ne_eq]
  constructor
  · rintro ⟨h1, h2⟩
    exact ⟨h2, fun e => h1 (.inr e.symm)⟩
  · rintro ⟨h1, h2⟩
    exact ⟨fun e => e.elim ha fun e => h2 e.symm, h1⟩

theorem children_not_avoid {l : List VertexId} {v : VertexId} (hv : l.getLast? = some v) (ha : avoids x l = false) :
    ((pathChildren g ⟨l⟩).map Path.vertices).filter (avoids x) = [] := by
  rw [List.filter_eq_nil_iff]
  intro q hq
  simp only [pathChildren, Path.last, hv, List.map_map, List.mem_map] at hq
  obtain ⟨w, _, rfl⟩ := hq
  simp only [avoids, decide_eq_false_iff_not, not_not] at ha
  simp [avoids, Path.append, edgesOf_snoc hv, ha]

theorem nextStep_fwd (hw : WF g) (m : FlowMap) (t : VertexId) {l : List VertexId} {v : VertexId} (hv : l.getLast? = some v) (ls : List (List VertexId)) (n : Nat) :
    nextStep g m t ⟨(l :: ls).map fwd⟩ n = (checkPath m t (fwd l) v).bind fun r =>
      match r with
      | some c => .done (.inr (some (fwd l, c)))
      | none => .done (.inl ⟨(ls ++ (pathChildren g ⟨l⟩).map Path.vertices).map fwd⟩) := by
  have hpop : Queue.pop (⟨(l :: ls).map fwd⟩ : Queue AugmentingPath) = some (fwd l, ⟨ls.map fwd⟩) := rfl
  unfold nextStep
  rw [hpop]
  simp only [last_fwd l v hv, Run.unwrap_some, Run.bind_done, pushNeighbours_fwd hw l v hv, Prog.lift, List.map_append, List.map_map, Function.comp_def]
  cases checkPath m t (fwd l) v with
  | running => rfl
  | panicked => rfl
  | done o => cases o <;> rfl

section
variable {cap : Edge → UInt64} {m m' : FlowMap} {f : Edge → Nat} {s t : VertexId}

theorem checkPath_avoid (h : Without g g' x) (hm : FlowRep g cap m f) (hm' : FlowRep g' cap m' f)
    (hf : ∀ e, g.containsEdge e = true → f e ≤ (cap e).toNat) {l : List VertexId} (hl : SimplePathFrom g s l) {v : VertexId} (ha : avoids x l = true) :
    checkPath m' t (fwd l) v = checkPath m t (fwd l) v := by
  unfold checkPath
  split
  · have h1 : ∀ e ∈ edgesOf l, g.containsEdge e = true := fun e he => edgesOf_adj hl.1 he
    have h2 : ∀ e ∈ edgesOf l, g'.containsEdge e = true := by
      intro e he
      refine (h.mem e).2 ⟨h1 e he, fun hx => ?_⟩
      simp only [avoids, decide_eq_true_eq] at ha
      exact ha (hx ▸ he)
    unfold residualCapacity
    rw [edges_fwd, residuals_fwd hm hf _ h1, residuals_fwd hm' (fun e he => hf e ((h.mem e).1 he).1) _ h2]
  · rfl

theorem checkPath_not_avoid (hm : FlowRep g cap m f) (hf : ∀ e, g.containsEdge e = true → f e ≤ (cap e).toNat) (hz : (cap x).toNat = 0)
    {l : List VertexId} (hl : SimplePathFrom g s l) {v : VertexId} (ha : avoids x l = false) : checkPath m t (fwd l) v = .done none := by
  simp only [avoids, decide_eq_false_iff_not, not_not] at ha
  unfold checkPath
  split
  · obtain ⟨c, h1, h2, _⟩ := residualCapacity_fwd hm hf hl.1 (List.ne_nil_of_mem ha)
    have := h2 x ha
    rw [h1, Run.bind_done, if_neg (by omega)]
  · rfl

/-- The search in the smaller graph finds the same path. -/
theorem find_without (hw : WF g) (hw' : WF g') (h : Without g g' x) (hz : (cap x).toNat = 0) (hm : FlowRep g cap m f) (hm' : FlowRep g' cap m' f)
    (hf : ∀ e, g.containsEdge e = true → f e ≤ (cap e).toNat) {r : Option (AugmentingPath × Nat)}
    (hr : Returns (findAugmentingPath g m s t) r) :
    Returns (findAugmentingPath g' m' s t) r ∧ ∀ p c, r = some (p, c) → ∃ l, p = fwd l ∧ avoids x l = true := by
  have key : ∀ (n k : Nat) (ls : List (List VertexId)), (∀ l ∈ ls, SimplePathFrom g s l) → Prog.loopAux (nextStep g m t) n k ⟨ls.map fwd⟩ = .done r →
      LoopTo (nextStep g' m' t) ⟨(ls.filter (avoids x)).map fwd⟩ r ∧ ∀ p c, r = some (p, c) → ∃ l, p = fwd l ∧ avoids x l = true := by
    intro n k
    induction k with
    | zero => intro ls _ he; simp [Prog.loopAux] at he
    | succ k ih =>
      intro ls hs he
      rcases ls with _ | ⟨l, ls⟩
      · have e1 : nextStep g m t ⟨([] : List (List VertexId)).map fwd⟩ n = .done (.inr none) := rfl
        simp only [Prog.loopAux, e1] at he
        cases he
        exact ⟨.stop (.ret _), fun p c h => by cases h⟩
      · have hl := hs l (by simp)
        obtain ⟨v, hv⟩ := hl.last
        have hs' : ∀ l' ∈ ls ++ (pathChildren g ⟨l⟩).map Path.vertices, SimplePathFrom g s l' := by
          intro l' hl'
          rcases List.mem_append.1 hl' with hl' | hl'
          · exact hs l' (by simp [hl'])
          · obtain ⟨p, hp, rfl⟩ := List.mem_map.1 hl'
            exact (pathChildren_rank hw s ⟨l⟩ hl p hp).1
        simp only [Prog.loopAux, nextStep_fwd hw m t hv] at he
        cases ha : avoids x l with
        | false =>
          rw [checkPath_not_avoid hm hf hz hl ha] at he
          simp only [Run.bind_done] at he
          have := ih _ hs' he
          rw [List.filter_append, children_not_avoid hv ha, List.append_nil] at this
          rw [List.filter_cons_of_neg (by simp [ha])]
          exact this
        | true =>
          rw [List.filter_cons_of_pos ha]
          have hstep : ∀ n, nextStep g' m' t ⟨(l :: ls.filter (avoids x)).map fwd⟩ n = _ := nextStep_fwd hw' m' t hv _
          rw [checkPath_avoid h hm hm' hf hl ha] at hstep
          cases hc : checkPath m t (fwd l) v with
          | running => rw [hc] at he; cases he
          | panicked => rw [hc] at he; cases he
          | done o =>
            rw [hc] at he hstep
            simp only [Run.bind_done] at he hstep
            cases o with
            | some c =>
              simp only at he hstep
              cases he
              exact ⟨.stop ⟨0, fun n _ => hstep n⟩, fun p c' h => by cases h; exact ⟨l, rfl, ha⟩⟩
            | none =>
              simp only at he hstep
              obtain ⟨k1, k2⟩ := ih _ hs' he
              rw [List.filter_append, children_avoid hw h hv ha] at k1
              exact ⟨.next ⟨0, fun n _ => hstep n⟩ k1, k2⟩
  obtain ⟨n, hn⟩ := hr
  have e := hn n (Nat.le_refl _)
  have hq : (Queue.new.push (.new s) : Queue AugmentingPath) = ⟨[[s]].map fwd⟩ := rfl
  unfold findAugmentingPath Prog.loop at e
  rw [hq] at e
  obtain ⟨k1, k2⟩ := key n n [[s]] (by
    intro l hl
    rw [List.mem_singleton] at hl
    subst hl
    exact ⟨by simp, rfl, by simp⟩) e
  refine ⟨?_, k2⟩
  have e1 : ([[s]] : List (List VertexId)).filter (avoids x) = [[s]] := by simp [avoids, edgesOf]
  rw [e1, ← hq] at k1
  exact k1.returns

/-- One round, in both graphs. -/
theorem step_without (hw : WF g) (hw' : WF g') (h : Without g g' x) (hz : (cap x).toNat = 0) (hst : s ≠ t) {n : Nat}
    (hm : FlowRep g cap m f) (hi : FlowInv g cap s t f n) (hm' : FlowRep g' cap m' f) :
    (Returns (step g s t (m, n)) (.inr (n, m)) ∧ Returns (step g' s t (m', n)) (.inr (n, m'))) ∨
    (∃ m1 m1' f1 n1, FlowRep g cap m1 f1 ∧ FlowRep g' cap m1' f1 ∧ FlowInv g cap s t f1 n1 ∧ n < n1 ∧
      ((Returns (step g s t (m, n)) (.inl (m1, n1)) ∧ Returns (step g' s t (m', n)) (.inl (m1', n1))) ∨
        (Panics (step g s t (m, n)) ∧ Panics (step g' s t (m', n))))) := by
  obtain ⟨r, h1, _, h3⟩ := find_spec hw hm hi.le hst
  obtain ⟨h1', h4⟩ := find_without hw hw' h hz hm hm' hi.le h1
  rcases r with _ | ⟨p, d⟩
  · exact .inl ⟨Returns.bind h1 (.ret _), Returns.bind h1' (.ret _)⟩
  · right
    obtain ⟨l, rfl, k1, k2, k3, k4, _⟩ := h3 p d rfl
    obtain ⟨l', e, ha⟩ := h4 _ d rfl
    have el : l = l' := by
      have := congrArg unfwd e
      rw [unfwd_fwd, unfwd_fwd] at this
      injection this
    subst el
    have hes : ∀ e ∈ edgesOf l, g.containsEdge e = true := fun e he => edgesOf_adj k1.1 he
    have hes' : ∀ e ∈ edgesOf l, g'.containsEdge e = true := by
      intro e he
      refine (h.mem e).2 ⟨hes e he, fun hx => ?_⟩
      simp only [avoids, decide_eq_true_eq] at ha
      exact ha (hx ▸ he)
    obtain ⟨m1, k5, k6⟩ := updateEdges_fwd d (edgesOf l) (edgesOf_nodup k1.2.2) hes hm k4
    obtain ⟨m1', k5', k6'⟩ := updateEdges_fwd d (edgesOf l) (edgesOf_nodup k1.2.2) hes' hm' k4
    refine ⟨m1, m1', _, n + d, k6, k6', hi.augment hw hst k1 k2 k3 k4, by omega, ?_⟩
    have e1 : updateFlow m (fwd l) d = .done m1 := by
      unfold updateFlow
      rw [edges_fwd, k5]
    have e2 : updateFlow m' (fwd l) d = .done m1' := by
      unfold updateFlow
      rw [edges_fwd, k5']
    by_cases hlt : n + d < 2 ^ 64
    · refine .inl ⟨Returns.bind h1 ?_, Returns.bind h1' ?_⟩
      · simp only [e1, Run.bind_done, addU64, hlt, if_true]
        exact .lift_done _
      · simp only [e2, Run.bind_done, addU64, hlt, if_true]
        exact .lift_done _
    · refine .inr ⟨Panics.bind_right h1 ?_, Panics.bind_right h1' ?_⟩
      · simp only [e1, Run.bind_done, addU64, hlt, if_false]
        exact ⟨0, fun _ _ => rfl⟩
      · simp only [e2, Run.bind_done, addU64, hlt, if_false]
        exact ⟨0, fun _ _ => rfl⟩

theorem maxFlow_without (hw : WF g) (hw' : WF g') (h : Without g g' x) (hz : (cap x).toNat = 0) (hst : s ≠ t) :
    (∃ n m m', Returns (maxFlow g cap s t) (n, m) ∧ Returns (maxFlow g' cap s t) (n, m') ∧
      ∀ e, HMap.get? m' e = if e = x then none else HMap.get? m e) ∨
    (Panics (maxFlow g cap s t) ∧ Panics (maxFlow g' cap s t)) := by
  suffices H : ∀ k m m' f n, FlowRep g cap m f → FlowRep g' cap m' f → FlowInv g cap s t f n → totalCapacity g cap - n = k →
      (∃ r m1', LoopTo (step g s t) (m, n) r ∧ LoopTo (step g' s t) (m', n) (r.1, m1') ∧
        ∀ e, HMap.get? m1' e = if e = x then none else HMap.get? r.2 e) ∨
      (LoopPanics (step g s t) (m, n) ∧ LoopPanics (step g' s t) (m', n)) by
    rcases H _ _ _ _ _ (initialFlow_rep hw cap) (initialFlow_rep hw' cap) (FlowInv.init g cap s t) rfl with ⟨r, m1', h1, h2, h3⟩ | ⟨h1, h2⟩
    · exact .inl ⟨r.1, r.2, m1', h1.returns, h2.returns, h3⟩
    · exact .inr ⟨h1.panics, h2.panics⟩
  intro k
  induction k using Nat.strongRecOn with
  | _ k ih =>
    intro m m' f n hm hm' hi hk
    rcases step_without hw hw' h hz hst hm hi hm' with ⟨h1, h2⟩ | ⟨m1, m1', f1, n1, h1, h2, h3, h4, h5⟩
    · refine .inl ⟨_, _, .stop h1, .stop h2, fun e => ?_⟩
      simp only
      rw [hm.2, hm'.2]
      by_cases hx : e = x
      · rw [if_pos hx, if_neg fun hc => ((h.mem e).1 hc).2 hx]
      · rw [if_neg hx]
        by_cases hc : g.containsEdge e = true
        · rw [if_pos hc, if_pos ((h.mem e).2 ⟨hc, hx⟩)]
        · rw [if_neg hc, if_neg fun hc' => hc ((h.mem e).1 hc').1]
    · have htot := h3.le_total hw hst
      rcases h5 with ⟨h5, h6⟩ | ⟨h5, h6⟩
      · rcases ih (totalCapacity g cap - n1) (by omega) m1 m1' f1 n1 h1 h2 h3 rfl with ⟨r, m2', k1, k2, k3⟩ | ⟨k1, k2⟩
        · exact .inl ⟨r, m2', .next h5 k1, .next h6 k2, k3⟩
        · exact .inr ⟨.next h5 k1, .next h6 k2⟩
      · exact .inr ⟨.stop h5, .stop h6⟩
end

theorem without_removeEdge (hw : WF g) (x : Edge) : Without g (g.removeEdge x).2 x := by
  constructor
  · intro v
    show (inc (g.removeEdge x).2 v).filter (fun e => decide (e.src = v)) = ((inc g v).filter (fun e => decide (e.src = v))).filter _
    rw [inc_removeEdge]
    split
    · rw [List.filter_filter, List.filter_filter]
      apply List.filter_congr
      intro e _
      rw [Bool.and_comm]
    · rename_i hv
      rw [List.filter_filter]
      apply List.filter_congr
      intro e _
      by_cases hx : e = x
      · subst hx
        have : ¬ e.src = v := fun he => hv (.inl he.symm)
        simp [this]
      · simp [hx]
  · intro e
    rw [(hw.removeEdge x).containsEdge_iff, hw.containsEdge_iff, mem_inc_removeEdge]
    constructor
    · rintro ⟨h1, h2⟩
      exact ⟨h1, fun hx => h2 ⟨hx, .inl (by rw [hx])⟩⟩
    · rintro ⟨h1, h2⟩
      exact ⟨h1, fun hx => h2 hx.1⟩

theorem without_addEdge (hw : WF g) (x : Edge) (hx : g.containsEdge x = false) : Without (g.addEdge x).2 g x := by
  have hn : ∀ v, x ∉ inc g v := fun v hv => by rw [(hw.mem_inc_iff.1 hv).1] at hx; cases hx
  have hfilter : ∀ v, (inc g v).filter (fun e => decide (e ≠ x)) = inc g v := by
    intro v
    rw [List.filter_eq_self]
    intro e he
    simp only [decide_eq_true_eq]
    exact fun h => hn v (h ▸ he)
  constructor
  · intro v
    show (inc g v).filter (fun e => decide (e.src = v)) = ((inc (g.addEdge x).2 v).filter (fun e => decide (e.src = v))).filter _
    rw [List.filter_filter]
    have e1 : (inc (g.addEdge x).2 v).filter (fun e => decide (e ≠ x)) = inc g v := by
      rw [inc_addEdge]
      split
      · rw [List.filter_append, hfilter]
        simp
      · exact hfilter v
    have e2 : (inc (g.addEdge x).2 v).filter (fun e => decide (e ≠ x) && decide (e.src = v)) =
        ((inc (g.addEdge x).2 v).filter (fun e => decide (e ≠ x))).filter (fun e => decide (e.src = v)) := by
      rw [List.filter_filter]
      apply List.filter_congr
      intro e _
      rw [Bool.and_comm]
    exact (e2.trans (by rw [e1])).symm
  · intro e
    rw [(hw.addEdge x).containsEdge_iff, hw.containsEdge_iff, mem_inc_addEdge hw]
    constructor
    · exact fun h => ⟨.inl h, fun he => hn _ (he ▸ h)⟩
    · rintro ⟨h1, h2⟩
      exact h1.elim id fun h => absurd h.1 h2

end MaxFlow
end GC
