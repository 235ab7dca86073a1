/-
Flows in networks: adding flow along a path, cuts.
-/
import Verif.Spec.MaxFlow
import Verif.Proofs.Graph
import Verif.Proofs.Path
import Mathlib.Algebra.BigOperators.Ring.Finset
import Mathlib.Algebra.Order.BigOperators.Group.Finset
import Mathlib.Tactic.Ring
namespace GC
open DirectedGraph Path

/-- `d` more flow on the edge `e`. -/
def bump (d : Nat) (f : Edge → Nat) (e : Edge) : Edge → Nat := fun x => if x = e then f x + d else f x

theorem sum_bump (E : Finset Edge) (d : Nat) (f : Edge → Nat) (e : Edge) :
    ∑ x ∈ E, bump d f e x = (∑ x ∈ E, f x) + if e ∈ E then d else 0 := by
  have h : ∀ x, bump d f e x = f x + if x = e then d else 0 := by
    intro x
    unfold bump
    split <;> simp
  simp only [h, Finset.sum_add_distrib, Finset.sum_ite_eq']

theorem netOut_bump {g : DirectedGraph} (hw : WF g) (d : Nat) (f : Edge → Nat) {e : Edge} (he : g.containsEdge e = true) (v : VertexId) :
    netOut g (bump d f e) v = netOut g f v + (if v = e.src then (d : Int) else 0) - (if v = e.dst then (d : Int) else 0) := by
  have he' : e ∈ g.edges.toFinset := List.mem_toFinset.2 (hw.mem_edges.2 he)
  unfold netOut outFlow inFlow
  rw [sum_bump, sum_bump]
  have e1 : (e ∈ g.edges.toFinset.filter fun e => e.src = v) ↔ v = e.src := by
    rw [Finset.mem_filter]
    exact ⟨fun h => h.2.symm, fun h => ⟨he', h.symm⟩⟩
  have e2 : (e ∈ g.edges.toFinset.filter fun e => e.dst = v) ↔ v = e.dst := by
    rw [Finset.mem_filter]
    exact ⟨fun h => h.2.symm, fun h => ⟨he', h.symm⟩⟩
  simp only [e1, e2]
  split <;> split <;> push_cast <;> ring

/-- `d` more flow on every edge of a list. -/
def bumpAll (d : Nat) (es : List Edge) (f : Edge → Nat) : Edge → Nat := es.foldl (bump d) f

theorem bumpAll_notMem (d : Nat) (es : List Edge) (f : Edge → Nat) (x : Edge) (h : x ∉ es) : bumpAll d es f x = f x := by
  induction es generalizing f with
  | nil => rfl
  | cons e es ih =>
    rw [List.mem_cons, not_or] at h
    unfold bumpAll at *
    rw [List.foldl_cons, ih _ h.2, bump, if_neg h.1]

theorem bumpAll_mem (d : Nat) (es : List Edge) (hn : es.Nodup) (f : Edge → Nat) (x : Edge) (h : x ∈ es) : bumpAll d es f x = f x + d := by
  induction es generalizing f with
  | nil => cases h
  | cons e es ih =>
    rw [List.nodup_cons] at hn
    unfold bumpAll at *
    rw [List.foldl_cons]
    by_cases hx : x = e
    · subst hx
      have := bumpAll_notMem d es (bump d f x) x hn.1
      unfold bumpAll at this
      rw [this, bump, if_pos rfl]
    · rw [ih hn.2 _ ((List.mem_cons.1 h).resolve_left hx), bump, if_neg hx]

/-- Adding flow along a walk changes the net flow only at its ends. -/
theorem netOut_bumpAll {g : DirectedGraph} (hw : WF g) (d : Nat) (f : Edge → Nat) (l : List VertexId) (hl : l.IsChain (Adj g))
    (s t : VertexId) (hs : l.head? = some s) (ht : l.getLast? = some t) (v : VertexId) :
    netOut g (bumpAll d (edgesOf l) f) v = netOut g f v + (if v = s then (d : Int) else 0) - (if v = t then (d : Int) else 0) := by
  induction l generalizing f s with
  | nil => cases hs
  | cons a l ih =>
    simp only [List.head?_cons, Option.some.injEq] at hs
    subst hs
    rcases l with _ | ⟨b, l⟩
    · simp only [List.getLast?_singleton, Option.some.injEq] at ht
      subst ht
      simp [edgesOf, bumpAll]
    · rw [List.isChain_cons_cons] at hl
      have := ih (bump d f ⟨a, b⟩) hl.2 b rfl (by simpa using ht)
      rw [edgesOf]
      unfold bumpAll at *
      rw [List.foldl_cons, this, netOut_bump hw d f hl.1]
      simp only
      ring

theorem edgesOf_mem {l : List VertexId} {e : Edge} (h : e ∈ edgesOf l) : e.src ∈ l.dropLast ∧ e.dst ∈ l.tail := by
  induction l with
  | nil => cases h
  | cons a l ih =>
    rcases l with _ | ⟨b, l⟩
    · cases h
    · rw [edgesOf, List.mem_cons] at h
      rcases h with rfl | h
      · simp
      · have := ih h
        constructor
        · simp [this.1]
        · exact List.mem_of_mem_tail this.2

theorem edgesOf_nodup {l : List VertexId} (h : l.Nodup) : (edgesOf l).Nodup := by
  induction l with
  | nil => simp [edgesOf]
  | cons a l ih =>
    rcases l with _ | ⟨b, l⟩
    · simp [edgesOf]
    · rw [edgesOf, List.nodup_cons]
      rw [List.nodup_cons] at h
      refine ⟨fun hm => h.1 ?_, ih h.2⟩
      exact List.mem_of_mem_dropLast (edgesOf_mem hm).1

theorem edgesOf_adj {g : DirectedGraph} {l : List VertexId} (hl : l.IsChain (Adj g)) {e : Edge} (h : e ∈ edgesOf l) :
    g.containsEdge e = true := by
  induction l with
  | nil => cases h
  | cons a l ih =>
    rcases l with _ | ⟨b, l⟩
    · cases h
    · rw [edgesOf, List.mem_cons] at h
      rw [List.isChain_cons_cons] at hl
      rcases h with rfl | h
      · exact hl.1
      · exact ih hl.2 h

/-! ### Cuts -/

/-- Flow on the edges from inside `S` to outside. -/
def crossOut (g : DirectedGraph) (f : Edge → Nat) (S : VertexId → Bool) : Nat :=
  ∑ e ∈ g.edges.toFinset with S e.src = true ∧ S e.dst = false, f e
/-- Flow on the edges from outside `S` to inside. -/
def crossIn (g : DirectedGraph) (f : Edge → Nat) (S : VertexId → Bool) : Nat :=
  ∑ e ∈ g.edges.toFinset with S e.src = false ∧ S e.dst = true, f e

theorem netOut_eq_cross {g : DirectedGraph} (hw : WF g) {s t : VertexId} {f : Edge → Nat}
    (hc : ∀ v, g.containsVertex v = true → v ≠ s → v ≠ t → netOut g f v = 0) {S : VertexId → Bool} (hS : IsCut s t S) :
    netOut g f s = (crossOut g f S : Int) - (crossIn g f S : Int) := by
  let V := (insert s g.vertices.toFinset).filter fun v => S v = true
  have hsV : s ∈ V := by simp [V, hS.1]
  have h1 : ∑ v ∈ V, netOut g f v = netOut g f s := by
    rw [Finset.sum_eq_single_of_mem s hsV]
    intro v hv hvs
    simp only [V, Finset.mem_filter, Finset.mem_insert, List.mem_toFinset] at hv
    refine hc v (mem_vertices.1 (hv.1.resolve_left hvs)) hvs ?_
    rintro rfl
    rw [hS.2] at hv
    simp at hv
  rw [← h1]
  have h2 : ∑ v ∈ V, outFlow g f v = ∑ e ∈ g.edges.toFinset with S e.src = true, f e := by
    unfold outFlow
    rw [← Finset.sum_fiberwise_of_maps_to (g := Edge.src) (t := V)]
    · refine Finset.sum_congr rfl fun v hv => ?_
      rw [Finset.filter_filter]
      refine Finset.sum_congr ?_ fun _ _ => rfl
      ext e
      simp only [Finset.mem_filter]
      constructor
      · rintro ⟨a, rfl⟩
        exact ⟨a, (Finset.mem_filter.1 hv).2, rfl⟩
      · rintro ⟨a, _, b⟩
        exact ⟨a, b⟩
    · intro e he
      simp only [Finset.mem_filter, List.mem_toFinset] at he
      simp only [V, Finset.mem_filter, Finset.mem_insert, List.mem_toFinset]
      exact ⟨.inr (mem_vertices.2 (hw.src_mem (hw.mem_edges.1 he.1))), he.2⟩
  have h3 : ∑ v ∈ V, inFlow g f v = ∑ e ∈ g.edges.toFinset with S e.dst = true, f e := by
    unfold inFlow
    rw [← Finset.sum_fiberwise_of_maps_to (g := Edge.dst) (t := V)]
    · refine Finset.sum_congr rfl fun v hv => ?_
      rw [Finset.filter_filter]
      refine Finset.sum_congr ?_ fun _ _ => rfl
      ext e
      simp only [Finset.mem_filter]
      constructor
      · rintro ⟨a, rfl⟩
        exact ⟨a, (Finset.mem_filter.1 hv).2, rfl⟩
      · rintro ⟨a, _, b⟩
        exact ⟨a, b⟩
    · intro e he
      simp only [Finset.mem_filter, List.mem_toFinset] at he
      simp only [V, Finset.mem_filter, Finset.mem_insert, List.mem_toFinset]
      exact ⟨.inr (mem_vertices.2 (hw.dst_mem (hw.mem_edges.1 he.1))), he.2⟩
  unfold netOut
  rw [Finset.sum_sub_distrib, ← Nat.cast_sum, ← Nat.cast_sum, h2, h3]
  unfold crossOut crossIn
  rw [Finset.sum_filter, Finset.sum_filter, Finset.sum_filter, Finset.sum_filter]
  push_cast
  rw [← Finset.sum_sub_distrib, ← Finset.sum_sub_distrib]
  refine Finset.sum_congr rfl fun e _ => ?_
  cases S e.src <;> cases S e.dst <;> simp

theorem feasible_net {g : DirectedGraph} {cap : Edge → UInt64} {s t : VertexId} {f : Edge → Nat} :
    Feasible g cap s t f ↔ (∀ e, g.containsEdge e = true → f e ≤ (cap e).toNat) ∧
      ∀ v, g.containsVertex v = true → v ≠ s → v ≠ t → netOut g f v = 0 := by
  unfold Feasible netOut
  refine and_congr_right fun _ => ?_
  refine forall_congr' fun v => forall_congr' fun _ => forall_congr' fun _ => forall_congr' fun _ => ?_
  omega

theorem crossOut_bumpAll (g : DirectedGraph) (S : VertexId → Bool) (d : Nat) (es : List Edge) (f : Edge → Nat) :
    crossOut g (bumpAll d es f) S ≤ crossOut g f S + d * es.countP fun e => S e.src && !S e.dst := by
  induction es generalizing f with
  | nil => simp [bumpAll]
  | cons e es ih =>
    have h1 := ih (bump d f e)
    have h2 : crossOut g (bump d f e) S ≤ crossOut g f S + if (S e.src && !S e.dst) = true then d else 0 := by
      unfold crossOut
      rw [sum_bump]
      refine Nat.add_le_add_left ?_ _
      split
      · rename_i hm
        rw [if_pos (by simpa using (Finset.mem_filter.1 hm).2)]
      · exact Nat.zero_le _
    have e1 : bumpAll d (e :: es) f = bumpAll d es (bump d f e) := rfl
    rw [e1, List.countP_cons]
    split at h2 <;> simp_all only [if_true, Nat.mul_add, Nat.mul_one] <;> grind

/-- A walk leaves a set at most once every two vertices. -/
theorem countP_leaving (S : VertexId → Bool) (l : List VertexId) (a : VertexId) (h : l.head? = some a) :
    2 * ((edgesOf l).countP fun e => S e.src && !S e.dst) + (if S a = true then 0 else 1) ≤ l.length := by
  induction l generalizing a with
  | nil => cases h
  | cons b l ih =>
    simp only [List.head?_cons, Option.some.injEq] at h
    subst h
    rcases l with _ | ⟨c, l⟩
    · simp [edgesOf]
      split <;> omega
    · have := ih c rfl
      rw [edgesOf, List.countP_cons]
      simp only [List.length_cons] at *
      cases hb : S b <;> cases hc : S c <;> simp [hb, hc] at * <;> omega

theorem crossOut_le {g : DirectedGraph} (hw : WF g) {cap : Edge → UInt64} {f : Edge → Nat}
    (hf : ∀ e, g.containsEdge e = true → f e ≤ (cap e).toNat) (S : VertexId → Bool) : crossOut g f S ≤ cutCapacity g cap S := by
  refine Finset.sum_le_sum fun e he => hf e ?_
  simp only [Finset.mem_filter, List.mem_toFinset] at he
  exact hw.mem_edges.1 he.1

/-- The value of a flow is at most the capacity of every cut. -/
theorem Feasible.le_cut {g : DirectedGraph} (hw : WF g) {cap : Edge → UInt64} {s t : VertexId} {f : Edge → Nat}
    (hf : Feasible g cap s t f) {S : VertexId → Bool} (hS : IsCut s t S) : netOut g f s ≤ (cutCapacity g cap S : Int) := by
  rw [netOut_eq_cross hw (feasible_net.1 hf).2 hS]
  have := crossOut_le hw hf.1 S
  omega

/-- A flow that fills a cut and does not cross it backwards is maximum. -/
theorem Feasible.max_of_cut {g : DirectedGraph} (hw : WF g) {cap : Edge → UInt64} {s t : VertexId} {f : Edge → Nat}
    (hf : Feasible g cap s t f) {S : VertexId → Bool} (hS : IsCut s t S)
    (h1 : ∀ u v, Adj g u v → S u = true → S v = false → f ⟨u, v⟩ = (cap ⟨u, v⟩).toNat)
    (h2 : ∀ u v, Adj g u v → S u = false → S v = true → f ⟨u, v⟩ = 0) {n : Nat} (hn : netOut g f s = n) :
    IsMaxFlowValue g cap s t n := by
  refine ⟨⟨f, hf, hn⟩, fun f' hf' => ?_⟩
  rw [← hn, netOut_eq_cross hw (feasible_net.1 hf).2 hS]
  have e1 : crossOut g f S = cutCapacity g cap S := by
    refine Finset.sum_congr rfl fun e he => ?_
    simp only [Finset.mem_filter, List.mem_toFinset] at he
    exact h1 e.src e.dst (hw.mem_edges.1 he.1) he.2.1 he.2.2
  have e2 : crossIn g f S = 0 := by
    refine Finset.sum_eq_zero fun e he => ?_
    simp only [Finset.mem_filter, List.mem_toFinset] at he
    exact h2 e.src e.dst (hw.mem_edges.1 he.1) he.2.1 he.2.2
  rw [e1, e2]
  have := hf'.le_cut hw hS
  omega

/-- The net flow into the target is the net flow out of the start. -/
theorem netOut_target {g : DirectedGraph} (hw : WF g) {s t : VertexId} (hst : s ≠ t) {f : Edge → Nat}
    (hc : ∀ v, g.containsVertex v = true → v ≠ s → v ≠ t → netOut g f v = 0) : netOut g f t = - netOut g f s := by
  rw [netOut_eq_cross hw hc (S := fun v => decide (v ≠ t)) ⟨by simpa using hst, by simp⟩]
  unfold netOut outFlow inFlow crossOut crossIn
  rw [Finset.sum_filter, Finset.sum_filter, Finset.sum_filter, Finset.sum_filter]
  push_cast
  rw [← Finset.sum_sub_distrib, ← Finset.sum_sub_distrib, ← Finset.sum_neg_distrib]
  refine Finset.sum_congr rfl fun e _ => ?_
  by_cases h1 : e.src = t <;> by_cases h2 : e.dst = t <;> simp [h1, h2]

/-- From a chain of steps, one without repetition. -/
theorem exists_simple {r : VertexId → VertexId → Prop} {s t : VertexId} (h : Relation.ReflTransGen r s t) :
    ∃ l : List VertexId, l.IsChain r ∧ l.head? = some s ∧ l.getLast? = some t ∧ l.Nodup := by
  induction h with
  | refl => exact ⟨[s], by simp, rfl, rfl, by simp⟩
  | @tail b c _ hc ih =>
    obtain ⟨l, h1, h2, h3, h4⟩ := ih
    by_cases hm : c ∈ l
    · obtain ⟨a, b', rfl⟩ := List.append_of_mem hm
      refine ⟨a ++ [c], ?_, ?_, by simp, ?_⟩
      · have : (a ++ [c]) ++ b' = a ++ c :: b' := by simp
        rw [← this] at h1
        exact (List.isChain_append.1 h1).1
      · rcases a with _ | ⟨x, a⟩ <;> simpa using h2
      · have : (a ++ [c]) ++ b' = a ++ c :: b' := by simp
        rw [← this] at h4
        exact (List.nodup_append.1 h4).1
    · refine ⟨l ++ [c], ?_, ?_, by simp, ?_⟩
      · rw [List.isChain_append]
        refine ⟨h1, by simp, ?_⟩
        intro x hx y hy
        rw [h3] at hx
        simp only [Option.mem_def, Option.some.injEq, List.head?_cons] at hx hy
        subst hx; subst hy
        exact hc
      · rcases l with _ | ⟨x, l⟩
        · cases h3
        · simpa using h2
      · rw [List.nodup_append]
        refine ⟨h4, by simp, ?_⟩
        rintro a ha b hb rfl
        simp only [List.mem_singleton] at hb
        exact hm (hb ▸ ha)

end GC
