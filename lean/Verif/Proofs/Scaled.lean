/-
max_flow with capacities multiplied by a number: both runs choose the same paths.
-/
import Verif.Proofs.MaxFlow
namespace GC
namespace MaxFlow
open DirectedGraph Path Direction

/-- `m'` has `c` times the flows and the capacities of `m`. -/
def Scaled (c : Nat) (m m' : FlowMap) : Prop := ∀ e, HMap.get? m' e = (HMap.get? m e).map fun q => (c * q.1, c * q.2)

variable {c : Nat} {m m' : FlowMap}

theorem edgeResidual_scaled (hc : 0 < c) (h : Scaled c m m') (e : Edge) (d : Direction) :
    edgeResidualCapacity e d m' = (edgeResidualCapacity e d m).bind fun r => .done (c * r) := by
  cases d with
  | Forward =>
    simp only [edgeResidualCapacity, h e]
    cases HMap.get? m e with
    | none => rfl
    | some q =>
      simp only [Option.map_some, Run.unwrap_some, Run.bind_done, subU64]
      by_cases hq : q.1 ≤ q.2
      · rw [if_pos hq, if_pos (Nat.mul_le_mul_left c hq), Run.bind_done, Nat.mul_sub]
      · rw [if_neg hq, if_neg fun hn => hq (Nat.le_of_mul_le_mul_left hn hc), Run.bind_panicked]
  | Backward =>
    simp only [edgeResidualCapacity, h e.reverse]
    cases HMap.get? m e.reverse with
    | none => rfl
    | some q => rfl

theorem residuals_scaled (hc : 0 < c) (h : Scaled c m m') (es : List (Edge × Direction)) :
    residuals m' es = (residuals m es).bind fun rs => .done (rs.map (c * ·)) := by
  induction es with
  | nil => rfl
  | cons e es ih =>
    simp only [residuals, edgeResidual_scaled hc h, ih]
    cases edgeResidualCapacity e.1 e.2 m with
    | running => rfl
    | panicked => rfl
    | done r => cases residuals m es <;> rfl

theorem min?_scaled (hc : 0 < c) (rs : List Nat) : (rs.map (c * ·)).min? = rs.min?.map (c * ·) := by
  cases hm : rs.min? with
  | none =>
    rw [List.min?_eq_none_iff] at hm
    subst hm
    rfl
  | some r =>
    obtain ⟨h1, h2⟩ := List.min?_eq_some_iff.1 hm
    refine List.min?_eq_some_iff.2 ⟨List.mem_map.2 ⟨r, h1, rfl⟩, fun x hx => ?_⟩
    obtain ⟨y, hy, rfl⟩ := List.mem_map.1 hx
    exact Nat.mul_le_mul_left c (h2 y hy)

theorem residualCapacity_scaled (hc : 0 < c) (h : Scaled c m m') (p : AugmentingPath) :
    residualCapacity p m' = (residualCapacity p m).bind fun r => .done (c * r) := by
  simp only [residualCapacity, residuals_scaled hc h]
  cases residuals m p.edges with
  | running => rfl
  | panicked => rfl
  | done rs =>
    simp only [Run.bind_done, min?_scaled hc]
    cases rs.min? <;> rfl

theorem checkPath_scaled (hc : 0 < c) (h : Scaled c m m') (t : VertexId) (p : AugmentingPath) (v : VertexId) :
    checkPath m' t p v = (checkPath m t p v).bind fun r => .done (r.map (c * ·)) := by
  unfold checkPath
  split
  · rw [residualCapacity_scaled hc h]
    cases residualCapacity p m with
    | running => rfl
    | panicked => rfl
    | done r =>
      simp only [Run.bind_done]
      by_cases hr : 0 < r
      · rw [if_pos hr, if_pos (Nat.mul_pos hc hr)]; rfl
      · have : r = 0 := by omega
        subst this
        simp
  · rfl

/-- What `scaled` does to the item found. -/
def scaleItem (c : Nat) (r : Option (AugmentingPath × Nat)) : Option (AugmentingPath × Nat) := r.map fun q => (q.1, c * q.2)

theorem nextStep_scaled (hc : 0 < c) (h : Scaled c m m') (g : DirectedGraph) (t : VertexId) (q : Queue AugmentingPath) (n : Nat) :
    nextStep g m' t q n = (nextStep g m t q n).bind fun r => .done (r.map id (scaleItem c)) := by
  unfold nextStep
  cases q.pop with
  | none => rfl
  | some x =>
    obtain ⟨p, q⟩ := x
    simp only [Prog.lift]
    cases Run.unwrap p.last with
    | running => rfl
    | panicked => rfl
    | done v =>
      simp only [Run.bind_done, checkPath_scaled hc h]
      cases checkPath m t p v.1 with
      | running => rfl
      | panicked => rfl
      | done r => cases r <;> rfl

theorem find_scaled (hc : 0 < c) (h : Scaled c m m') (g : DirectedGraph) (s t : VertexId) (n : Nat) :
    findAugmentingPath g m' s t n = (findAugmentingPath g m s t n).bind fun r => .done (scaleItem c r) := by
  unfold findAugmentingPath Prog.loop
  have key : ∀ k q, Prog.loopAux (nextStep g m' t) n k q = (Prog.loopAux (nextStep g m t) n k q).bind fun r => .done (scaleItem c r) := by
    intro k
    induction k with
    | zero => exact fun _ => rfl
    | succ k ih =>
      intro q
      simp only [Prog.loopAux, nextStep_scaled hc h]
      cases nextStep g m t q n with
      | running => rfl
      | panicked => rfl
      | done r =>
        cases r with
        | inl q' => exact ih q'
        | inr r => rfl
  exact key n _

theorem find_scaled_returns (hc : 0 < c) (h : Scaled c m m') {g : DirectedGraph} {s t : VertexId} {r : Option (AugmentingPath × Nat)}
    (hr : Returns (findAugmentingPath g m s t) r) : Returns (findAugmentingPath g m' s t) (scaleItem c r) := by
  obtain ⟨n, hn⟩ := hr
  exact ⟨n, fun k hk => by rw [find_scaled hc h, hn k hk]; rfl⟩

theorem FlowRep.scaled {g : DirectedGraph} {cap cap' : Edge → UInt64} (hcap : ∀ e, g.containsEdge e = true → (cap' e).toNat = c * (cap e).toNat)
    {f : Edge → Nat} (h : FlowRep g cap m f) (h' : FlowRep g cap' m' fun e => c * f e) : Scaled c m m' := by
  intro e
  rw [h.2, h'.2]
  split
  · rename_i he
    rw [hcap e he]
    rfl
  · rfl

theorem bumpAll_scaled (c d : Nat) (es : List Edge) (f : Edge → Nat) :
    bumpAll (c * d) es (fun e => c * f e) = fun e => c * bumpAll d es f e := by
  induction es generalizing f with
  | nil => rfl
  | cons e es ih =>
    have h1 : bump (c * d) (fun e => c * f e) e = fun x => c * bump d f e x := by
      funext x
      unfold bump
      split
      · rw [Nat.mul_add]
      · rfl
    show bumpAll (c * d) es (bump (c * d) (fun e => c * f e) e) = _
    rw [h1, ih]
    rfl

/-- One round, in both networks. -/
theorem step_scaled {g : DirectedGraph} (hw : WF g) {cap cap' : Edge → UInt64} (hc : 0 < c)
    (hcap : ∀ e, g.containsEdge e = true → (cap' e).toNat = c * (cap e).toNat) {s t : VertexId} (hst : s ≠ t) {f : Edge → Nat} {n : Nat}
    (hm : FlowRep g cap m f) (h : FlowInv g cap s t f n) (hm' : FlowRep g cap' m' fun e => c * f e) :
    (Returns (step g s t (m, n)) (.inr (n, m)) ∧ Returns (step g s t (m', c * n)) (.inr (c * n, m'))) ∨
    (∃ m1 m1' f1 d, FlowRep g cap m1 f1 ∧ FlowRep g cap' m1' (fun e => c * f1 e) ∧ FlowInv g cap s t f1 (n + d) ∧ 0 < d ∧
      ((n + d < 2 ^ 64 ∧ Returns (step g s t (m, n)) (.inl (m1, n + d))) ∨ (2 ^ 64 ≤ n + d ∧ Panics (step g s t (m, n)))) ∧
      ((c * (n + d) < 2 ^ 64 ∧ Returns (step g s t (m', c * n)) (.inl (m1', c * (n + d)))) ∨
        (2 ^ 64 ≤ c * (n + d) ∧ Panics (step g s t (m', c * n))))) := by
  obtain ⟨r, h1, _, h3⟩ := find_spec hw hm h.le hst
  have h1' := find_scaled_returns hc (hm.scaled hcap hm') h1
  rcases r with _ | ⟨p, d⟩
  · exact .inl ⟨Returns.bind h1 (.ret _), Returns.bind h1' (.ret _)⟩
  · right
    obtain ⟨l, rfl, k1, k2, k3, k4, _⟩ := h3 p d rfl
    have hes : ∀ e ∈ edgesOf l, g.containsEdge e = true := fun e he => edgesOf_adj k1.1 he
    obtain ⟨m1, k5, k6⟩ := updateEdges_fwd d (edgesOf l) (edgesOf_nodup k1.2.2) hes hm k4
    obtain ⟨m1', k5', k6'⟩ := updateEdges_fwd (c * d) (edgesOf l) (edgesOf_nodup k1.2.2) hes hm' (by
      intro e he
      rw [hcap e (hes e he), ← Nat.mul_add]
      exact Nat.mul_le_mul_left c (k4 e he))
    rw [bumpAll_scaled] at k6'
    refine ⟨m1, m1', _, d, k6, k6', h.augment hw hst k1 k2 k3 k4, k3, ?_, ?_⟩
    · have e : updateFlow m (fwd l) d = .done m1 := by
        unfold updateFlow
        rw [edges_fwd, k5]
      by_cases hlt : n + d < 2 ^ 64
      · refine .inl ⟨hlt, Returns.bind h1 ?_⟩
        simp only [e, Run.bind_done, addU64, hlt, if_true]
        exact .lift_done _
      · refine .inr ⟨by omega, Panics.bind_right h1 ?_⟩
        simp only [e, Run.bind_done, addU64, hlt, if_false]
        exact ⟨0, fun _ _ => rfl⟩
    · have e : updateFlow m' (fwd l) (c * d) = .done m1' := by
        unfold updateFlow
        rw [edges_fwd, k5']
      rw [Nat.mul_add]
      by_cases hlt : c * n + c * d < 2 ^ 64
      · refine .inl ⟨hlt, Returns.bind h1' ?_⟩
        simp only [scaleItem, Option.map_some, e, Run.bind_done, addU64, hlt, if_true]
        exact .lift_done _
      · refine .inr ⟨by omega, Panics.bind_right h1' ?_⟩
        simp only [scaleItem, Option.map_some, e, Run.bind_done, addU64, hlt, if_false]
        exact ⟨0, fun _ _ => rfl⟩

/-- From a state on, the value does not become smaller. -/
theorem loop_ge {g : DirectedGraph} (hw : WF g) {cap : Edge → UInt64} {s t : VertexId} (hst : s ≠ t) (k : Nat) (m : FlowMap) (f : Edge → Nat) (n : Nat)
    (hm : FlowRep g cap m f) (hf : FlowInv g cap s t f n) (hk : totalCapacity g cap - n = k) :
    (∃ r, LoopTo (step g s t) (m, n) r ∧ n ≤ r.1) ∨ LoopPanics (step g s t) (m, n) := by
  induction k using Nat.strongRecOn generalizing m f n with
  | _ k ih =>
    rcases step_spec hw hst hm hf with ⟨h1, h2⟩ | ⟨m', f', n', h1, h2, h3, h4⟩
    · exact .inl ⟨_, .stop h1, Nat.le_refl _⟩
    · rcases h4 with ⟨h4, h5⟩ | ⟨h4, h5⟩
      · have := h2.le_total hw hst
        rcases ih (totalCapacity g cap - n') (by omega) m' f' n' h1 h2 rfl with ⟨r, k1, k2⟩ | k1
        · exact .inl ⟨r, .next h5 k1, by omega⟩
        · exact .inr (.next h5 k1)
      · exact .inr (.stop h5)

/-- Both runs end alike, but for the overflow of the value. -/
theorem maxFlow_scaled {g : DirectedGraph} (hw : WF g) {cap cap' : Edge → UInt64} (hc : 0 < c)
    (hcap : ∀ e, g.containsEdge e = true → (cap' e).toNat = c * (cap e).toNat) {s t : VertexId} (hst : s ≠ t) :
    (∃ n m m', Returns (maxFlow g cap s t) (n, m) ∧ Returns (maxFlow g cap' s t) (c * n, m') ∧ Scaled c m m' ∧ c * n < 2 ^ 64) ∨
    (Panics (maxFlow g cap' s t) ∧ (Panics (maxFlow g cap s t) ∨ ∃ n m, Returns (maxFlow g cap s t) (n, m) ∧ 2 ^ 64 ≤ c * n)) := by
  suffices H : ∀ k m m' f n, FlowRep g cap m f → FlowRep g cap' m' (fun e => c * f e) → FlowInv g cap s t f n → c * n < 2 ^ 64 →
      totalCapacity g cap - n = k →
      (∃ r m1', LoopTo (step g s t) (m, n) r ∧ LoopTo (step g s t) (m', c * n) (c * r.1, m1') ∧ Scaled c r.2 m1' ∧ c * r.1 < 2 ^ 64) ∨
      (LoopPanics (step g s t) (m', c * n) ∧ (LoopPanics (step g s t) (m, n) ∨ ∃ r, LoopTo (step g s t) (m, n) r ∧ 2 ^ 64 ≤ c * r.1)) by
    have h0 := initialFlow_rep hw cap'
    have e0 : (fun _ : Edge => 0) = fun e : Edge => c * (fun _ : Edge => 0) e := by simp
    rw [e0] at h0
    rcases H _ _ _ _ _ (initialFlow_rep hw cap) h0 (FlowInv.init g cap s t) (by rw [Nat.mul_zero]; decide) rfl with ⟨r, m1', h1, h2, h3, h4⟩ | ⟨h1, h2⟩
    · exact .inl ⟨r.1, r.2, m1', h1.returns, h2.returns, h3, h4⟩
    · refine .inr ⟨h1.panics, ?_⟩
      rcases h2 with h2 | ⟨r, h2, h3⟩
      · exact .inl h2.panics
      · exact .inr ⟨r.1, r.2, h2.returns, h3⟩
  intro k
  induction k using Nat.strongRecOn with
  | _ k ih =>
    intro m m' f n hm hm' hf hlt hk
    rcases step_scaled hw hc hcap hst hm hf hm' with ⟨h1, h2⟩ | ⟨m1, m1', f1, d, h1, h2, h3, h4, h5, h6⟩
    · exact .inl ⟨_, _, .stop h1, .stop h2, hm.scaled hcap hm', hlt⟩
    · have hle : n + d ≤ c * (n + d) := Nat.le_mul_of_pos_left _ hc
      have htot := h3.le_total hw hst
      rcases h6 with ⟨h6, h7⟩ | ⟨h6, h7⟩
      · rcases h5 with ⟨h5, h8⟩ | ⟨h5, _⟩
        · rcases ih (totalCapacity g cap - (n + d)) (by omega) m1 m1' f1 (n + d) h1 h2 h3 h6 rfl with ⟨r, m2', k1, k2, k3, k4⟩ | ⟨k1, k2⟩
          · exact .inl ⟨r, m2', .next h8 k1, .next h7 k2, k3, k4⟩
          · refine .inr ⟨.next h7 k1, ?_⟩
            rcases k2 with k2 | ⟨r, k2, k3⟩
            · exact .inl (.next h8 k2)
            · exact .inr ⟨r, .next h8 k2, k3⟩
        · omega
      · refine .inr ⟨.stop h7, ?_⟩
        rcases h5 with ⟨h5, h8⟩ | ⟨h5, h8⟩
        · rcases loop_ge hw hst _ m1 f1 (n + d) h1 h3 rfl with ⟨r, k1, k2⟩ | k1
          · exact .inr ⟨r, .next h8 k1, Nat.le_trans h6 (Nat.mul_le_mul_left c k2)⟩
          · exact .inl (.next h8 k1)
        · exact .inl (.stop h8)

end MaxFlow
end GC
