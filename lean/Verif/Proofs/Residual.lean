/-
Rerouting a flow: a feasible flow is of greatest value exactly if it cannot be rerouted.
-/
import Verif.Proofs.Flow
import Verif.Spec.Residual
namespace GC
open DirectedGraph Path

/-- One unit less on one edge. -/
def lower (f : Edge → Nat) (e : Edge) : Edge → Nat := fun x => if x = e then f x - 1 else f x

theorem netOut_lower {g : DirectedGraph} (hw : WF g) (f : Edge → Nat) {e : Edge} (he : g.containsEdge e = true) (hf : 0 < f e) (v : VertexId) :
    netOut g (lower f e) v = netOut g f v - (if v = e.src then 1 else 0) + (if v = e.dst then 1 else 0) := by
  have h1 : bump 1 (lower f e) e = f := by
    funext x
    unfold bump lower
    by_cases hx : x = e
    · subst hx
      simp only [if_true]
      omega
    · simp [hx]
  have h2 := netOut_bump hw 1 (lower f e) he v
  rw [h1] at h2
  push_cast at h2
  omega

/-- One unit more gets from `u` to `v`, and only edges between the two change. -/
theorem shift {g : DirectedGraph} (hw : WF g) {cap : Edge → UInt64} {f : Edge → Nat} {u v : VertexId} (h : CanShift g cap f u v)
    (hf : ∀ e, g.containsEdge e = true → f e ≤ (cap e).toNat) :
    ∃ f' : Edge → Nat, (∀ e, g.containsEdge e = true → f' e ≤ (cap e).toNat) ∧
      (∀ w, netOut g f' w = netOut g f w + (if w = u then 1 else 0) - (if w = v then 1 else 0)) ∧
      ∀ e : Edge, e ≠ ⟨u, v⟩ → e ≠ ⟨v, u⟩ → f' e = f e := by
  rcases h with ⟨ha, hlt⟩ | ⟨ha, hpos⟩
  · refine ⟨bump 1 f ⟨u, v⟩, fun e he => ?_, fun w => ?_, fun e h1 _ => ?_⟩
    · have := hf e he
      unfold bump
      split
      · next h => subst h; omega
      · exact this
    · have := netOut_bump hw 1 f ha w
      push_cast at this
      exact this
    · unfold bump
      rw [if_neg h1]
  · refine ⟨lower f ⟨v, u⟩, fun e he => ?_, fun w => ?_, fun e _ h2 => ?_⟩
    · have := hf e he
      unfold lower
      split <;> omega
    · rw [netOut_lower hw f ha hpos w]
      dsimp only
      omega
    · unfold lower
      rw [if_neg h2]

/-- One unit more gets along a path without repeated vertices. -/
theorem shift_path {g : DirectedGraph} (hw : WF g) {cap : Edge → UInt64} (l : List VertexId) :
    ∀ (f : Edge → Nat) (s t : VertexId), l.IsChain (CanShift g cap f) → l.head? = some s → l.getLast? = some t → l.Nodup →
      (∀ e, g.containsEdge e = true → f e ≤ (cap e).toNat) →
      ∃ f' : Edge → Nat, (∀ e, g.containsEdge e = true → f' e ≤ (cap e).toNat) ∧
        ∀ w, netOut g f' w = netOut g f w + (if w = s then 1 else 0) - (if w = t then 1 else 0) := by
  induction l with
  | nil => intro f s t _ hs; cases hs
  | cons a l ih =>
    intro f s t hc hs ht hn hf
    simp only [List.head?_cons, Option.some.injEq] at hs
    subst hs
    cases l with
    | nil =>
      simp only [List.getLast?_singleton, Option.some.injEq] at ht
      subst ht
      exact ⟨f, hf, fun w => by omega⟩
    | cons b l =>
      obtain ⟨h1, h2⟩ := List.isChain_cons_cons.1 hc
      obtain ⟨f1, k1, k2, k3⟩ := shift hw h1 hf
      have hn' := List.nodup_cons.1 hn
      have hc' : (b :: l).IsChain (CanShift g cap f1) := by
        have : ∀ x ∈ b :: l, x ≠ a := fun x hx e => hn'.1 (e ▸ hx)
        generalize b :: l = l' at h2 this
        clear ih hc hn hn' ht h1 k1 k2
        induction l' with
        | nil => exact List.IsChain.nil
        | cons x l' ihl =>
          cases l' with
          | nil => exact List.IsChain.singleton _
          | cons y l' =>
            obtain ⟨m1, m2⟩ := List.isChain_cons_cons.1 h2
            refine List.isChain_cons_cons.2 ⟨?_, ihl m2 (fun z hz => this z (List.mem_cons_of_mem _ hz))⟩
            have hx := this x (by simp)
            have hy := this y (by simp)
            have e1 : f1 ⟨x, y⟩ = f ⟨x, y⟩ := k3 _ (by simp [hx]) (by simp [hy])
            have e2 : f1 ⟨y, x⟩ = f ⟨y, x⟩ := k3 _ (by simp [hy]) (by simp [hx])
            unfold CanShift
            rw [e1, e2]
            exact m1
      rw [List.getLast?_cons_cons] at ht
      obtain ⟨f2, j1, j2⟩ := ih f1 b t hc' rfl ht hn'.2 k1
      refine ⟨f2, j1, fun w => ?_⟩
      rw [j2, k2]
      omega

/-- A feasible flow is of greatest value exactly if it cannot be rerouted. -/
theorem max_iff_no_shift {g : DirectedGraph} (hw : WF g) {cap : Edge → UInt64} {s t : VertexId} (hst : s ≠ t) {f : Edge → Nat}
    (hf : Feasible g cap s t f) {n : Nat} (hn : netOut g f s = n) :
    IsMaxFlowValue g cap s t n ↔ ¬ Relation.ReflTransGen (CanShift g cap f) s t := by
  classical
  constructor
  · intro hmax hr
    obtain ⟨l, h1, h2, h3, h4⟩ := exists_simple hr
    obtain ⟨f', k1, k2⟩ := shift_path hw l f s t h1 h2 h3 h4 hf.1
    have hfeas : Feasible g cap s t f' := by
      refine feasible_net.2 ⟨k1, fun v hv hs ht => ?_⟩
      rw [k2, (feasible_net.1 hf).2 v hv hs ht, if_neg hs, if_neg ht]
      rfl
    have := hmax.2 f' hfeas
    rw [k2, hn, if_pos rfl, if_neg hst] at this
    omega
  · intro hno
    refine hf.max_of_cut hw (S := fun v => decide (Relation.ReflTransGen (CanShift g cap f) s v))
      ⟨by simpa using Relation.ReflTransGen.refl, by simpa using hno⟩ ?_ ?_ hn
    · intro u v ha hu hv
      simp only [decide_eq_true_eq, decide_eq_false_iff_not] at hu hv
      rcases Nat.lt_or_eq_of_le (hf.1 ⟨u, v⟩ ha) with hlt | heq
      · exact absurd (hu.tail (.inl ⟨ha, hlt⟩)) hv
      · exact heq
    · intro u v ha hu hv
      simp only [decide_eq_true_eq, decide_eq_false_iff_not] at hu hv
      by_contra hne
      exact hu (hv.tail (.inr ⟨ha, by omega⟩))

/-- A number is the greatest value of a flow exactly if it is the value of a flow and the capacity of a cut. -/
theorem max_iff_cut {g : DirectedGraph} (hw : WF g) {cap : Edge → UInt64} {s t : VertexId} (hst : s ≠ t) {f : Edge → Nat}
    (hf : Feasible g cap s t f) {n : Nat} (hn : netOut g f s = n) :
    IsMaxFlowValue g cap s t n ↔ ∃ S, IsCut s t S ∧ cutCapacity g cap S = n := by
  classical
  constructor
  · intro hmax
    have hno := (max_iff_no_shift hw hst hf hn).1 hmax
    have hS : IsCut s t (fun v => decide (Relation.ReflTransGen (CanShift g cap f) s v)) :=
      ⟨by simpa using Relation.ReflTransGen.refl, by simpa using hno⟩
    refine ⟨_, hS, ?_⟩
    have h1 := netOut_eq_cross hw (feasible_net.1 hf).2 hS
    have e1 : crossOut g f (fun v => decide (Relation.ReflTransGen (CanShift g cap f) s v)) =
        cutCapacity g cap (fun v => decide (Relation.ReflTransGen (CanShift g cap f) s v)) := by
      refine Finset.sum_congr rfl fun e he => ?_
      simp only [Finset.mem_filter, List.mem_toFinset, decide_eq_true_eq, decide_eq_false_iff_not] at he
      have ha : Adj g e.src e.dst := hw.mem_edges.1 he.1
      rcases Nat.lt_or_eq_of_le (hf.1 e ha) with hlt | heq
      · exact absurd (he.2.1.tail (.inl ⟨ha, hlt⟩)) he.2.2
      · exact heq
    have e2 : crossIn g f (fun v => decide (Relation.ReflTransGen (CanShift g cap f) s v)) = 0 := by
      refine Finset.sum_eq_zero fun e he => ?_
      simp only [Finset.mem_filter, List.mem_toFinset, decide_eq_true_eq, decide_eq_false_iff_not] at he
      have ha : Adj g e.src e.dst := hw.mem_edges.1 he.1
      by_contra hne
      exact he.2.1 (he.2.2.tail (.inr ⟨ha, Nat.pos_of_ne_zero hne⟩))
    rw [hn] at h1
    omega
  · rintro ⟨S, hS, hc⟩
    refine ⟨⟨f, hf, hn⟩, fun f' hf' => ?_⟩
    have := hf'.le_cut hw hS
    omega

end GC
