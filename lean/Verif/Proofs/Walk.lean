/- Lemmas about walks and their weights. -/
import Verif.Spec.ShortestPath
import Verif.Proofs.Graph
import Mathlib.Data.List.Induction
import Mathlib.Tactic.Linarith
namespace GC
open DirectedGraph

variable {g : DirectedGraph} {w : Edge → Int} {s u v x : VertexId}

theorem WalkFromTo.ne_nil {l : List VertexId} (h : WalkFromTo g u v l) : l ≠ [] := by
  rintro rfl; cases h.2.1

theorem WalkFromTo.single (u : VertexId) : WalkFromTo g u u [u] := ⟨List.isChain_singleton _, rfl, rfl⟩

theorem WalkFromTo.snoc {l : List VertexId} (h : WalkFromTo g s u l) (a : Adj g u v) : WalkFromTo g s v (l ++ [v]) := by
  obtain ⟨h1, h2, h3⟩ := h
  refine ⟨?_, ?_, by simp⟩
  · rw [List.isChain_append]
    refine ⟨h1, List.isChain_singleton _, ?_⟩
    intro x hx y hy
    rw [h3] at hx
    cases hx; cases hy
    exact a
  · rw [List.head?_append, h2]; rfl

/-- Every walk is a single vertex or extends a shorter one by an edge. -/
theorem WalkFromTo.snoc_cases {l : List VertexId} (h : WalkFromTo g s v l) :
    (l = [v] ∧ s = v) ∨ ∃ u l', l = l' ++ [v] ∧ WalkFromTo g s u l' ∧ Adj g u v := by
  obtain ⟨h1, h2, h3⟩ := h
  rcases List.eq_nil_or_concat l with hl | ⟨l', x, hl⟩
  · subst hl; cases h2
  · rw [List.concat_eq_append] at hl
    subst hl
    have hx : x = v := by simpa using h3
    subst hx
    rcases List.eq_nil_or_concat l' with hl | ⟨l'', y, hl⟩
    · subst hl
      left
      refine ⟨rfl, ?_⟩
      have h2 : some x = some s := h2
      injection h2 with h2
      exact h2.symm
    · right
      rw [List.concat_eq_append] at hl
      rw [List.isChain_append] at h1
      refine ⟨y, l', rfl, ⟨h1.1, ?_, by rw [hl]; simp⟩, h1.2.2 y (by rw [hl]; simp) x (by simp)⟩
      rw [List.head?_append] at h2
      cases hh : l'.head? with
      | none => rw [List.head?_eq_none_iff] at hh; rw [hh] at hl; simp at hl
      | some a => rw [hh] at h2; simpa using h2

theorem WalkFromTo.split {a b : List VertexId} (h : WalkFromTo g s v (a ++ x :: b)) :
    WalkFromTo g s x (a ++ [x]) ∧ WalkFromTo g x v (x :: b) := by
  obtain ⟨h1, h2, h3⟩ := h
  rw [List.isChain_append] at h1
  refine ⟨⟨?_, ?_, by simp⟩, ⟨h1.2.1, rfl, ?_⟩⟩
  · rw [List.isChain_append]
    refine ⟨h1.1, List.isChain_singleton _, ?_⟩
    intro y hy z hz
    cases hz
    exact h1.2.2 y hy x (by simp)
  · cases a <;> simpa using h2
  · rw [List.getLast?_append] at h3
    cases hh : (x :: b).getLast? with
    | none => simp at hh
    | some z => rw [hh] at h3; simpa using h3

theorem WalkFromTo.join {a b : List VertexId} (h1 : WalkFromTo g s x (a ++ [x])) (h2 : WalkFromTo g x v (x :: b)) :
    WalkFromTo g s v (a ++ x :: b) := by
  obtain ⟨c1, c2, c3⟩ := h1
  obtain ⟨d1, d2, d3⟩ := h2
  rw [List.isChain_append] at c1
  refine ⟨?_, ?_, ?_⟩
  · rw [List.isChain_append]
    refine ⟨c1.1, d1, ?_⟩
    intro y hy z hz
    cases hz
    exact c1.2.2 y hy x (by simp)
  · cases a <;> simpa using c2
  · rw [List.getLast?_append, d3]; rfl

theorem WalkFromTo.reach {l : List VertexId} (h : WalkFromTo g s v l) : Reach g s v := by
  induction l using List.reverseRecOn generalizing v with
  | nil => exact absurd rfl h.ne_nil
  | append_singleton l x ih =>
    rcases h.snoc_cases with ⟨_, rfl⟩ | ⟨u, l', h1, h2, h3⟩
    · exact .refl
    · have := List.append_inj' h1 rfl
      rw [← this.1] at h2
      exact .tail (ih h2) h3

theorem Reach.walk (h : Reach g s v) : ∃ l, WalkFromTo g s v l := by
  induction h with
  | refl => exact ⟨_, .single _⟩
  | tail _ a ih =>
    obtain ⟨l, hl⟩ := ih
    exact ⟨_, hl.snoc a⟩

theorem Reach.cases_tail (h : Reach g s v) : s = v ∨ ∃ u, Reach g s u ∧ Adj g u v := by
  rcases Relation.ReflTransGen.cases_tail h with h | ⟨u, h1, h2⟩
  · exact .inl h.symm
  · exact .inr ⟨u, h1, h2⟩

theorem Reach.cases_head (h : Reach g s v) : s = v ∨ ∃ u, Adj g s u ∧ Reach g u v := by
  rcases Relation.ReflTransGen.cases_head h with h | ⟨u, h1, h2⟩
  · exact .inl h
  · exact .inr ⟨u, h1, h2⟩

/-- Everything on a walk can be reached from its start. -/
theorem WalkFromTo.mem_reach {l : List VertexId} (h : WalkFromTo g s v l) (hx : x ∈ l) : Reach g s x := by
  obtain ⟨a, b, rfl⟩ := List.append_of_mem hx
  exact h.split.1.reach

/-- If a vertex reachable from `s` has an outgoing edge, every vertex reachable from `s` is a vertex of the graph. -/
theorem reach_vertex (hw : WF g) (hu : Reach g s u) (a : Adj g u v) (hx : Reach g s x) : g.containsVertex x = true := by
  have hs : g.containsVertex s = true := by
    rcases hu.cases_head with rfl | ⟨y, h1, _⟩
    · exact hw.src_mem a
    · exact hw.src_mem h1
  rcases hx.cases_tail with rfl | ⟨y, _, h1⟩
  · exact hs
  · exact hw.dst_mem h1

theorem walkWeight_split (w : Edge → Int) (a : List VertexId) (x : VertexId) (b : List VertexId) :
    walkWeight w (a ++ x :: b) = walkWeight w (a ++ [x]) + walkWeight w (x :: b) := by
  induction a with
  | nil => simp [walkWeight]
  | cons c a ih =>
    cases a with
    | nil => simp [walkWeight]
    | cons d a =>
      simp only [List.cons_append, walkWeight] at ih ⊢
      rw [ih]; omega

theorem walkWeight_snoc {l : List VertexId} (h : WalkFromTo g s u l) (v : VertexId) :
    walkWeight w (l ++ [v]) = walkWeight w l + w ⟨u, v⟩ := by
  rcases List.eq_nil_or_concat l with hl | ⟨l', y, hl⟩
  · exact absurd hl h.ne_nil
  · rw [List.concat_eq_append] at hl
    have hy : y = u := by have := h.2.2; rw [hl] at this; simpa using this
    subst hy; subst hl
    rw [List.append_assoc, List.singleton_append, walkWeight_split w l' y [v]]
    simp [walkWeight]

theorem walkWeight_neg (w : Edge → Int) (l : List VertexId) : walkWeight (fun e => -(w e)) l = - walkWeight w l := by
  induction l with
  | nil => simp [walkWeight]
  | cons a l ih =>
    cases l with
    | nil => simp [walkWeight]
    | cons b l => simp only [walkWeight] at ih ⊢; rw [ih]; omega

theorem walkWeight_abs {M : Int} (hM : ∀ e, g.containsEdge e = true → |w e| ≤ M) {l : List VertexId} (h : l.IsChain (Adj g))
    (hne : l ≠ []) : |walkWeight w l| ≤ ((l.length : Int) - 1) * M := by
  induction l with
  | nil => exact absurd rfl hne
  | cons a l ih =>
    cases l with
    | nil => simp [walkWeight]
    | cons b l =>
      rw [List.isChain_cons_cons] at h
      have h1 := ih h.2 (by simp)
      have h2 := hM _ h.1
      simp only [walkWeight, List.length_cons] at h1 ⊢
      rw [abs_le] at h1 h2 ⊢
      push_cast at h1 ⊢
      constructor <;> nlinarith

end GC
