/- The shortest-path algorithms without overflow checks: what their results still mean, and that SPFA always ends. -/
import Verif.Proofs.Release
import Verif.Proofs.BellmanFord
import Verif.Proofs.MaxFlow
import Mathlib.Tactic.Ring
namespace GC
open DirectedGraph HMap Path
namespace Release
open TopoSort ShortestPath MaxFlow

variable {g : DirectedGraph} {w : WeightFn} {s v : VertexId} {sc : Scores}

theorem wrapI64_range (x : Int) : -2 ^ 63 ≤ wrapI64 x ∧ wrapI64 x < 2 ^ 63 := by
  unfold wrapI64
  have h1 := Int.le_bmod (x := x) (m := 2 ^ 64) (by norm_num)
  have h2 := Int.bmod_lt (x := x) (m := 2 ^ 64) (by norm_num)
  constructor <;> omega

theorem wrapI64_dvd (x : Int) : (2 ^ 64 : Int) ∣ wrapI64 x - x := by
  have h : Int.bmod x (2 ^ 64) % ((2 ^ 64 : Nat) : Int) = x % ((2 ^ 64 : Nat) : Int) := Int.bmod_emod
  unfold wrapI64
  omega

theorem wrapsTo_wrap (x : Int) : WrapsTo x (wrapI64 x) := ⟨(wrapI64_range x).1, (wrapI64_range x).2, wrapI64_dvd x⟩

theorem wrapsTo_add {x y z : Int} (h : WrapsTo x y) : WrapsTo (x + z) (wrapI64 (y + z)) := by
  refine ⟨(wrapI64_range _).1, (wrapI64_range _).2, ?_⟩
  have := Int.dvd_add (wrapI64_dvd (y + z)) h.2.2
  rwa [show wrapI64 (y + z) - (y + z) + (y - x) = wrapI64 (y + z) - (x + z) by ring] at this

/-- The invariant, by key. -/
structure Ent (g : DirectedGraph) (w : WeightFn) (s : VertexId) (sc : Scores) : Prop where
  nd : (keys sc).Nodup
  walk : ∀ v sp, get? sc v = some sp → WalkFromTo g s v sp.path.vertices ∧ WrapsTo (walkWeight w sp.path.vertices) sp.score

theorem Ent.initial : Ent g w s (initialScores s) := by
  refine ⟨by simp [initialScores, HMap.insert, keys], fun v sp h => ?_⟩
  rw [get?_initial] at h
  split at h
  · rename_i e
    subst e
    cases h
    exact ⟨.single _, by simp [walkWeight, WrapsTo]⟩
  · cases h

theorem Ent.insert (h : Ent g w s sc) {e : Edge} (he : g.containsEdge e = true) {sp : ScoredPath} (hu : get? sc e.src = some sp) :
    Ent g w s (HMap.insert sc e.dst ⟨sp.path.append e.dst, wrapI64 (sp.score + w e)⟩) := by
  obtain ⟨h1, h2⟩ := h.walk _ _ hu
  refine ⟨nodup_keys_insert h.nd _ _, fun x q hq => ?_⟩
  rw [get?_insert] at hq
  split at hq
  · rename_i hx
    subst hx
    cases hq
    refine ⟨h1.snoc he, ?_⟩
    simp only [Path.append]
    rw [walkWeight_snoc h1]
    exact wrapsTo_add h2
  · exact h.walk x q hq

theorem Ent.wrapped (h : Ent g w s sc) : WrappedWalks g w s sc :=
  ⟨h.nd, fun v sp hm => h.walk v sp ((get?_eq_some_iff h.nd).2 hm)⟩

/-- What one relaxation does. -/
theorem improvement_eq (w : WeightFn) (sc : Scores) (e : Edge) :
    improvement w sc e = .done none ∨
    ∃ sp, get? sc e.src = some sp ∧ wrapI64 (sp.score + w e) < currentScoreOfVertex sc e.dst ∧
      improvement w sc e = .done (some ⟨sp.path.append e.dst, wrapI64 (sp.score + w e)⟩) := by
  unfold improvement
  cases h : get? sc e.src with
  | none => exact .inl rfl
  | some sp =>
    simp only [addI64, Run.bind_done, scoredPathOf]
    split
    · rename_i hlt
      exact .inr ⟨sp, rfl, hlt, rfl⟩
    · exact .inl rfl

theorem forEach_inv {σ α : Type} {body : σ → α → Run σ} (I : σ → Prop) (l : List α)
    (h : ∀ a ∈ l, ∀ s, I s → ∃ s', body s a = .done s' ∧ I s') (s : σ) (hs : I s) : ∃ s', Run.forEach body s l = .done s' ∧ I s' := by
  induction l generalizing s with
  | nil => exact ⟨s, rfl, hs⟩
  | cons a l ih =>
    obtain ⟨s1, h1, h2⟩ := h a (by simp) s hs
    obtain ⟨s2, h3, h4⟩ := ih (fun b hb => h b (by simp [hb])) s1 h2
    exact ⟨s2, by simp only [Run.forEach, h1, Run.bind_done, h3], h4⟩

theorem bfRelax_ent (e : Edge) (he : g.containsEdge e = true) (sc : Scores) (h : Ent g w s sc) :
    ∃ sc', bfRelax w sc e = .done sc' ∧ Ent g w s sc' := by
  unfold bfRelax
  rcases improvement_eq w sc e with k | ⟨sp, k1, _, k⟩
  · exact ⟨sc, by rw [k]; rfl, h⟩
  · exact ⟨_, by rw [k]; rfl, h.insert he k1⟩

theorem bfImprovable_total (w : WeightFn) (sc : Scores) (l : List Edge) : ∃ b, bfImprovable w sc l = .done b := by
  induction l with
  | nil => exact ⟨false, rfl⟩
  | cons e l ih =>
    unfold bfImprovable
    rcases improvement_eq w sc e with k | ⟨sp, k1, _, k⟩
    · rw [k]; exact ih
    · exact ⟨true, by rw [k]; rfl⟩

theorem bellmanFord_total (hw : WF g) (w : WeightFn) (s : VertexId) :
    ∃ r, bellmanFord g w s = .done r ∧ ∀ sc, r = some sc → WrappedWalks g w s sc := by
  obtain ⟨sc, h1, h2⟩ := forEach_inv (body := bfRound g w) (Ent g w s) (List.range' 1 (g.vertexCount - 1)) (fun _ _ sc h =>
    forEach_inv (body := bfRelax w) (Ent g w s) g.edges (fun e he sc h => bfRelax_ent e (hw.mem_edges.1 he) sc h) sc h) _ (Ent.initial (g := g) (w := w) (s := s))
  obtain ⟨b, hb⟩ := bfImprovable_total w sc g.edges
  refine ⟨if b then none else some sc, by unfold bellmanFord; rw [h1, Run.bind_done, hb]; rfl, fun sc' h => ?_⟩
  cases b
  · cases h; exact h2.wrapped
  · cases h

theorem dagRun_ent (hw : WF g) {order : List VertexId} {sc : Scores} (h : dagRun g (pureFn w) s order = .done sc) : WrappedWalks g w s sc := by
  refine Ent.wrapped ?_
  unfold dagRun at h
  have inner : ∀ (v : VertexId) (l : List Edge), (∀ e ∈ l, e.src = v ∧ g.containsEdge e = true) → ∀ sc sc', Ent g w s sc →
      Run.forEach (dagRelax (pureFn w) v) sc l = .done sc' → Ent g w s sc' := by
    intro v l
    induction l with
    | nil => intro _ sc sc' h1 h2; cases h2; exact h1
    | cons e l ih =>
      intro hl sc sc' h1 h2
      simp only [Run.forEach] at h2
      obtain ⟨sc1, k1, k2⟩ := Run.bind_eq_done.1 h2
      refine ih (fun e he => hl e (by simp [he])) sc1 sc' ?_ k2
      obtain ⟨rfl, he⟩ := hl e (by simp)
      unfold dagRelax at k1
      obtain ⟨sp, k3, k4⟩ := Run.bind_eq_done.1 k1
      have hsp : get? sc e.src = some sp := by
        cases hx : get? sc e.src with
        | none => rw [hx] at k3; cases k3
        | some q => rw [hx] at k3; cases k3; rfl
      simp only [pureFn, Run.bind_done, addI64, scoredPathOf] at k4
      have hi := h1.insert he hsp
      split at k4
      · split at k4
        · cases k4; exact hi
        · cases k4; exact h1
      · cases k4; exact hi
  generalize order.dropWhile (fun v => v ≠ s) = l at h
  have outer : ∀ (l : List VertexId) sc sc', Ent g w s sc → Run.forEach (dagVisit g (pureFn w)) sc l = .done sc' → Ent g w s sc' := by
    intro l
    induction l with
    | nil => intro sc sc' h1 h2; cases h2; exact h1
    | cons v l ih =>
      intro sc sc' h1 h2
      simp only [Run.forEach] at h2
      obtain ⟨sc1, k1, k2⟩ := Run.bind_eq_done.1 h2
      refine ih sc1 sc' (inner v _ (fun e he => ?_) sc sc1 h1 k1) k2
      have := hw.mem_outbound.1 he
      exact ⟨this.2, this.1⟩
  exact outer l _ _ Ent.initial h

/-! ### SPFA always ends -/

theorem phi_insert (hw : WF g) (hr : InRange sc) {e : Edge} (he : g.containsEdge e = true) {q : ScoredPath}
    (hq1 : -2 ^ 63 ≤ q.score) (hq2 : q.score < 2 ^ 63) (hlt : ∀ cur, get? sc e.dst = some cur → q.score < cur.score) :
    phi g (HMap.insert sc e.dst q) < phi g sc := by
  have hq : get? (HMap.insert sc e.dst q) e.dst = some q := by rw [get?_insert, if_pos rfl]
  unfold phi
  refine List.sum_lt_sum _ _ ?_ ⟨e.dst, mem_vertices.2 (hw.dst_mem he), ?_⟩
  · intro x hx
    by_cases hxe : x = e.dst
    · subst hxe
      rw [hq]
      cases hc : get? sc e.dst with
      | none => simp only; omega
      | some cur =>
        have := hlt cur hc
        simp only
        omega
    · rw [get?_insert, if_neg hxe]
  · rw [hq]
    cases hc : get? sc e.dst with
    | none => simp only; omega
    | some cur =>
      have := hlt cur hc
      have := hr _ _ hc
      simp only
      omega

theorem Ent.inRange (h : Ent g w s sc) : InRange sc := fun v sp hv => ⟨(h.walk v sp hv).2.1, (h.walk v sp hv).2.2.1⟩

theorem spfa_total (hw : WF g) (w : WeightFn) (s : VertexId) : ∃ sc, Returns (spfa g w s) sc ∧ WrappedWalks g w s sc := by
  refine returns_loop_of_measure (fun p => Ent g w s p.1) (fun sc => WrappedWalks g w s sc) (fun p => phi g p.1 + p.2.queue.length) ?_ _ Ent.initial
  intro p hp
  cases hq : p.2.queue with
  | nil =>
    right
    refine ⟨p.1, ?_, hp.wrapped⟩
    unfold spfaStep Queue.pop
    rw [hq]
    exact .ret _
  | cons x rest =>
    left
    have key := forEach_inv (body := spfaRelax w)
      (fun p' => Ent g w s p'.1 ∧ phi g p'.1 + p'.2.queue.length ≤ phi g p.1 + rest.length) (g.outboundEdges x) (by
      rintro e he ⟨sc, q⟩ ⟨k1, k2⟩
      have he' := (hw.mem_outbound.1 he).1
      unfold spfaRelax
      rcases improvement_eq w sc e with k | ⟨sp, k3, k4, k⟩
      · exact ⟨_, by dsimp only; rw [k]; rfl, k1, k2⟩
      · refine ⟨_, by dsimp only; rw [k]; rfl, k1.insert he' k3, ?_⟩
        have hd := phi_insert (q := ⟨sp.path.append e.dst, wrapI64 (sp.score + w e)⟩) hw k1.inRange he' (wrapI64_range _).1 (wrapI64_range _).2 (by
          intro cur hc
          rw [current_some hc] at k4
          exact k4)
        simp only [Queue.push, List.length_append, List.length_singleton]
        dsimp only at k2 hd
        change phi g (HMap.insert sc e.dst _) + (q.queue.length + 1) ≤ _
        omega) (p.1, ⟨rest⟩) ⟨hp, Nat.le_refl _⟩
    obtain ⟨p', h1, h2, h3⟩ := key
    refine ⟨p', ?_, h2, ?_⟩
    · unfold spfaStep Queue.pop
      rw [hq]
      dsimp only
      rw [h1]
      exact Returns.bind (.lift_done _) (.ret _)
    · simp only [List.length_cons]
      omega

theorem not_lightest (hn : NegativeCycle g w s) (sc : Scores) : ¬ LightestWalks g w s sc := by
  rintro ⟨h1, h2, h3⟩
  obtain ⟨v, c, k1, k2, k3⟩ := hn
  obtain ⟨⟨v', sp⟩, hm, rfl⟩ := List.mem_map.1 ((h2 v).2 k1)
  obtain ⟨j1, j2, j3⟩ := h3 _ _ hm
  dsimp only at k2 j1
  rcases c with _ | ⟨y, c⟩
  · cases k2.2.1
  · have hy : y = v' := by have := k2.2.1; simpa using this
    subst hy
    rcases List.eq_nil_or_concat sp.path.vertices with hb | ⟨p, z, hb⟩
    · exact absurd hb j1.ne_nil
    · rw [List.concat_eq_append] at hb
      have hz : z = y := by have := j1.2.2; rw [hb] at this; simpa using this
      subst hz
      rw [hb] at j1
      have := j3 _ (j1.join k2)
      rw [walkWeight_split, ← hb, ← j2] at this
      omega

/-! ### max_flow -/

/-- One round of the main loop; `n` is the value before wrapping. -/
theorem step_total (hw : WF g) {cap : Edge → UInt64} {s t : VertexId} (hst : s ≠ t) {m : FlowMap} {f : Edge → Nat} {n : Nat}
    (hm : FlowRep g cap m f) (h : FlowInv g cap s t f n) :
    (Returns (step g s t (m, n % 2 ^ 64)) (.inr (n % 2 ^ 64, m)) ∧ ∀ l, ¬ Augments g cap f s t l) ∨
    ∃ m' f' n', FlowRep g cap m' f' ∧ FlowInv g cap s t f' n' ∧ n < n' ∧ Returns (step g s t (m, n % 2 ^ 64)) (.inl (m', n' % 2 ^ 64)) := by
  obtain ⟨r, h1, h2, h3⟩ := find_spec hw hm h.le hst
  have h1 := (find_ref g m s t).same.1 _ h1
  rcases r with _ | ⟨p, c⟩
  · exact .inl ⟨Returns.bind h1 (.ret _), h2 rfl⟩
  · right
    obtain ⟨l, rfl, k1, k2, k3, k4, _⟩ := h3 p c rfl
    obtain ⟨m', k5, k6⟩ := updateEdges_fwd c (edgesOf l) (edgesOf_nodup k1.2.2) (fun e he => edgesOf_adj k1.1 he) hm k4
    refine ⟨m', _, n + c, k6, h.augment hw hst k1 k2 k3 k4, by omega, Returns.bind h1 ?_⟩
    have e : updateFlow m (fwd l) c = .done m' := by
      unfold updateFlow
      rw [edges_fwd]
      rcases updateEdges_ref c ((edgesOf l).map fun e => (e, Direction.Forward)) m with e | e
      · rw [k5] at e; cases e
      · rw [e, k5]
    simp only [e, Run.bind_done, addU64]
    rw [Nat.mod_add_mod]
    exact .lift_done _

theorem maxFlow_total (hw : WF g) (cap : Edge → UInt64) {s t : VertexId} (hst : s ≠ t) :
    ∃ m f n, Returns (maxFlow g cap s t) (n % 2 ^ 64, m) ∧ FlowRep g cap m f ∧ FlowInv g cap s t f n ∧ ∀ l, ¬ Augments g cap f s t l := by
  suffices H : ∀ k m f n, FlowRep g cap m f → FlowInv g cap s t f n → totalCapacity g cap - n = k →
      ∃ m' f' n', LoopTo (step g s t) (m, n % 2 ^ 64) (n' % 2 ^ 64, m') ∧ FlowRep g cap m' f' ∧ FlowInv g cap s t f' n' ∧
        ∀ l, ¬ Augments g cap f' s t l by
    obtain ⟨m', f', n', h1, h2⟩ := H _ _ _ _ (initialFlow_rep hw cap) (FlowInv.init g cap s t) rfl
    exact ⟨m', f', n', h1.returns, h2⟩
  intro k
  induction k using Nat.strongRecOn with
  | _ k ih =>
    intro m f n hm hf hk
    rcases step_total hw hst hm hf with ⟨h1, h2⟩ | ⟨m', f', n', h1, h2, h3, h4⟩
    · exact ⟨_, _, _, .stop h1, hm, hf, h2⟩
    · have := h2.le_total hw hst
      obtain ⟨m2, f2, n2, k1, k2⟩ := ih (totalCapacity g cap - n') (by omega) m' f' n' h1 h2 rfl
      exact ⟨m2, f2, n2, .next h4 k1, k2⟩

end Release
end GC
