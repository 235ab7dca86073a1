/-
Walks and changed weights (C140).
-/
import Verif.Spec.Reweighted
import Verif.Props.ShortestPath
namespace GC
open DirectedGraph ShortestPath

variable {g : DirectedGraph} {w w' : WeightFn} {c : Int} {p : VertexId → Int}

theorem Reweighted.walk (h : Reweighted g w w' c p) {s v : VertexId} {l : List VertexId} (hl : WalkFromTo g s v l) :
    walkWeight w' l = c * walkWeight w l + p s - p v := by
  induction l generalizing s with
  | nil => exact absurd hl.2.1 (by simp)
  | cons a l ih =>
    obtain ⟨h1, h2, h3⟩ := hl
    simp at h2
    subst h2
    rcases l with _ | ⟨b, l⟩
    · simp at h3
      subst h3
      simp [walkWeight]
    · rw [List.isChain_cons_cons] at h1
      rw [List.getLast?_cons_cons] at h3
      have := ih ⟨h1.2, rfl, h3⟩
      simp only [walkWeight, this, h a b h1.1]
      rw [Int.mul_add]
      omega

theorem Reweighted.negativeCycle (hc : 0 < c) (h : Reweighted g w w' c p) (s : VertexId) : NegativeCycle g w s ↔ NegativeCycle g w' s := by
  unfold NegativeCycle
  refine exists_congr fun v => exists_congr fun l => and_congr_right fun _ => and_congr_right fun hl => ?_
  rw [h.walk hl]
  constructor
  · intro hn
    have := Int.mul_neg_of_pos_of_neg hc hn
    omega
  · intro hn
    by_contra hcon
    have := Int.mul_nonneg (Int.le_of_lt hc) (Int.not_lt.1 hcon)
    omega

theorem mem_unique {m : List (VertexId × ScoredPath)} (hn : (m.map Prod.fst).Nodup) {v : VertexId} {a b : ScoredPath} (ha : (v, a) ∈ m) (hb : (v, b) ∈ m) :
    a = b := by
  have := List.inj_on_of_nodup_map hn ha hb rfl
  injection this

theorem Reweighted.lightest (hc : 0 < c) (h : Reweighted g w w' c p) {s : VertexId} {sc sc' : Scores} (h1 : LightestWalks g w s sc)
    (h2 : LightestWalks g w' s sc') : RescoredBy c p s sc sc' := by
  have key : ∀ {v a b}, (v, a) ∈ sc → (v, b) ∈ sc' → b.score = c * a.score + p s - p v := by
    intro v a b ha hb
    obtain ⟨a1, a2, a3⟩ := h1.2.2 v a ha
    obtain ⟨b1, b2, b3⟩ := h2.2.2 v b hb
    have l1 := a3 _ b1
    have l2 := b3 _ a1
    have e1 := h.walk b1
    have e2 := h.walk a1
    have l3 := Int.mul_le_mul_of_nonneg_left l1 (Int.le_of_lt hc)
    rw [a2] at *
    omega
  intro v k'
  constructor
  · rintro ⟨b, hb, rfl⟩
    obtain ⟨⟨v', a⟩, ha, e⟩ := List.mem_map.1 ((h1.2.1 v).2 ((h2.2.1 v).1 (List.mem_map.2 ⟨_, hb, rfl⟩)))
    simp only at e
    subst e
    exact ⟨a, ha, key ha hb⟩
  · rintro ⟨a, ha, rfl⟩
    obtain ⟨⟨v', b⟩, hb, e⟩ := List.mem_map.1 ((h2.2.1 v).2 ((h1.2.1 v).1 (List.mem_map.2 ⟨_, ha, rfl⟩)))
    simp only at e
    subst e
    exact ⟨b, hb, key ha hb⟩

theorem Reweighted.heaviest (hc : 0 < c) (h : Reweighted g w w' c p) {s : VertexId} {sc sc' : Scores} (h1 : HeaviestWalks g w s sc)
    (h2 : HeaviestWalks g w' s sc') : RescoredBy c p s sc sc' := by
  have key : ∀ {v a b}, (v, a) ∈ sc → (v, b) ∈ sc' → b.score = c * a.score + p s - p v := by
    intro v a b ha hb
    obtain ⟨a1, a2, a3⟩ := h1.2.2 v a ha
    obtain ⟨b1, b2, b3⟩ := h2.2.2 v b hb
    have l1 := a3 _ b1
    have l2 := b3 _ a1
    have e1 := h.walk b1
    have e2 := h.walk a1
    have l3 := Int.mul_le_mul_of_nonneg_left l1 (Int.le_of_lt hc)
    rw [a2] at *
    omega
  intro v k'
  constructor
  · rintro ⟨b, hb, rfl⟩
    obtain ⟨⟨v', a⟩, ha, e⟩ := List.mem_map.1 ((h1.2.1 v).2 ((h2.2.1 v).1 (List.mem_map.2 ⟨_, hb, rfl⟩)))
    simp only at e
    subst e
    exact ⟨a, ha, key ha hb⟩
  · rintro ⟨a, ha, rfl⟩
    obtain ⟨⟨v', b⟩, hb, e⟩ := List.mem_map.1 ((h2.2.1 v).2 ((h1.2.1 v).1 (List.mem_map.2 ⟨_, ha, rfl⟩)))
    simp only at e
    subst e
    exact ⟨b, hb, key ha hb⟩

end GC
