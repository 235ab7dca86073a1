/-
Lemmas for C138: shortest walks are short, cycles are closed by an edge.
-/
import Verif.Proofs.SameFrom
import Verif.Proofs.Memory
namespace GC
open DirectedGraph

variable {g : DirectedGraph}

/-- A shortest walk visits no vertex twice. -/
theorem shortest_simple (h : Built g) (hsize : g.vertexCount < 2 ^ 63) {s t : VertexId} (hr : Reach g s t) :
    ∃ l, WalkFromTo g s t l ∧ l.Nodup ∧ ∀ l', WalkFromTo g s t l' → l.length ≤ l'.length := by
  obtain ⟨r, _, h2, h3⟩ := C33_short_path_optimal exHeap g h hsize s t
  cases r with
  | none => exact absurd hr (h2.1 rfl)
  | some sp =>
    obtain ⟨h4, h5, _, h6⟩ := h3 sp rfl
    exact ⟨_, h4, h5, h6⟩

theorem nodup_of_best (h : Built g) (hsize : g.vertexCount < 2 ^ 63) {s t : VertexId} (hr : Reach g s t) :
    ∃ l, SimplePathFrom g s l ∧ WalkFromTo g s t l ∧ l.length ≤ max 1 g.vertexCount ∧ ∀ l', WalkFromTo g s t l' → l.length ≤ l'.length := by
  obtain ⟨l, h1, h2, h3⟩ := shortest_simple h hsize hr
  have hs : SimplePathFrom g s l := ⟨h1.1, h1.2.1, h2⟩
  exact ⟨l, hs, h1, Memory.simple_length h.wf hs, h3⟩

theorem repeats_iff {l : List VertexId} : RepeatsVertex ⟨l⟩ ↔ ¬ l.Nodup := by
  constructor
  · rintro ⟨i, j, v, hij, hi, hj⟩ hn
    unfold At at hi hj
    simp only at hi hj
    obtain ⟨a1, b1⟩ := List.getElem?_eq_some_iff.1 hi
    obtain ⟨a2, b2⟩ := List.getElem?_eq_some_iff.1 hj
    have := (List.Nodup.getElem_inj_iff hn).1 (b1.trans b2.symm)
    omega
  · intro hn
    rw [List.nodup_iff_getElem?_ne_getElem?] at hn
    push Not at hn
    obtain ⟨i, j, hij, hj, e⟩ := hn
    exact ⟨i, j, l[j], hij, by unfold At; rw [e]; exact List.getElem?_eq_getElem hj, by unfold At; exact List.getElem?_eq_getElem hj⟩

theorem WalkFromTo.cons {s u v : VertexId} {l : List VertexId} (h : WalkFromTo g u v l) (a : Adj g s u) : WalkFromTo g s v (s :: l) := by
  obtain ⟨l', rfl⟩ := List.head?_eq_some_iff.1 h.2.1
  exact ⟨List.isChain_cons_cons.2 ⟨a, h.1⟩, rfl, by rw [List.getLast?_cons_cons]; exact h.2.2⟩

/-- A cycle is a simple path and the edge back from its end. -/
theorem isCycle_iff {l : List VertexId} : IsCycle g l ↔ ∃ v u, WalkFromTo g v u l ∧ l.Nodup ∧ Adj g u v := by
  constructor
  · rintro ⟨h1, h2, h3⟩
    obtain ⟨v, m, rfl⟩ := List.exists_cons_of_ne_nil h1
    refine ⟨v, (v :: m).getLast h1, ⟨h3.left_of_append, rfl, List.getLast?_eq_some_getLast h1⟩, h2, ?_⟩
    have := (List.isChain_append.1 h3).2.2 _ (List.getLast?_eq_some_getLast h1) v (by simp)
    exact this
  · rintro ⟨v, u, ⟨h1, h2, h3⟩, h4, h5⟩
    refine ⟨by rintro rfl; simp at h2, h4, ?_⟩
    rw [h2]
    refine List.isChain_append.2 ⟨h1, by simp, ?_⟩
    intro x hx y hy
    rw [h3] at hx
    simp at hx hy
    subst hx hy
    exact h5

end GC
