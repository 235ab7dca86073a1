/- Lemmas about paths and constraints. -/
import Verif.Spec.Constraint
import Verif.Proofs.HMap
import Mathlib.Data.List.Nodup
import Mathlib.Tactic.Tauto
namespace GC
open Path

theorem visits_iff_mem {p : Path} {v : VertexId} : Visits p v ↔ v ∈ p.vertices := by
  unfold Visits At
  rw [List.mem_iff_getElem?]

theorem containsVertex_iff_mem {p : Path} {v : VertexId} : p.containsVertex v = true ↔ v ∈ p.vertices := by
  simp [containsVertex]

theorem mem_edgesOf {l : List VertexId} {e : Edge} :
    e ∈ edgesOf l ↔ ∃ i, l[i]? = some e.src ∧ l[i + 1]? = some e.dst := by
  induction l with
  | nil => simp [edgesOf]
  | cons a l ih =>
    cases l with
    | nil => simp [edgesOf]
    | cons b l =>
      rw [edgesOf, List.mem_cons, ih]
      constructor
      · rintro (rfl | ⟨i, h1, h2⟩)
        · exact ⟨0, by simp⟩
        · exact ⟨i + 1, by simpa using h1, by simpa using h2⟩
      · rintro ⟨i, h1, h2⟩
        cases i with
        | zero => left; cases e; simp_all
        | succ i => right; exact ⟨i, by simpa using h1, by simpa using h2⟩

theorem pathContainsEdge_iff {p : Path} {e : Edge} : p.containsEdge e = true ↔ Traverses p e := by
  unfold Path.containsEdge Traverses At toEdgeList
  rw [List.find?_isSome]
  simp only [decide_eq_true_eq, exists_eq_right]
  exact mem_edgesOf

theorem length_edgesOf (l : List VertexId) : (edgesOf l).length = l.length - 1 := by
  induction l with
  | nil => rfl
  | cons a l ih =>
    cases l with
    | nil => rfl
    | cons b l => rw [edgesOf, List.length_cons, ih]; simp

theorem edgesOf_getElem? (l : List VertexId) (i : Nat) (e : Edge) :
    (edgesOf l)[i]? = some e ↔ l[i]? = some e.src ∧ l[i + 1]? = some e.dst := by
  induction l generalizing i with
  | nil => simp [edgesOf]
  | cons a l ih =>
    cases l with
    | nil => simp [edgesOf]
    | cons b l =>
      rw [edgesOf]
      cases i with
      | zero =>
        cases e
        simp
      | succ i => simpa using ih i

theorem containsCycleAux_false {seen l : List VertexId} :
    containsCycleAux seen l = false ↔ l.Nodup ∧ ∀ v ∈ l, v ∉ seen := by
  induction l generalizing seen with
  | nil => simp [containsCycleAux]
  | cons a l ih =>
    rw [containsCycleAux]
    by_cases h : a ∈ seen
    · simp [h]
    · simp only [List.contains_eq_mem, h, decide_false, Bool.false_eq_true, if_false, ih, List.nodup_cons,
        List.mem_append, List.mem_cons, List.not_mem_nil, or_false, not_or, forall_eq_or_imp, not_false_iff, true_and]
      constructor
      · rintro ⟨h1, h2⟩
        exact ⟨⟨fun c => (h2 a c).2 rfl, h1⟩, fun v hv => (h2 v hv).1⟩
      · rintro ⟨⟨h1, h2⟩, h3⟩
        exact ⟨h2, fun v hv => ⟨h3 v hv, by rintro rfl; exact h1 hv⟩⟩

theorem containsCycle_false_iff {p : Path} : p.containsCycle = false ↔ p.vertices.Nodup := by
  unfold containsCycle
  rw [containsCycleAux_false]
  simp

theorem containsCycle_iff {p : Path} : p.containsCycle = true ↔ RepeatsVertex p := by
  rw [← Bool.not_eq_false, containsCycle_false_iff, List.nodup_iff_getElem?_ne_getElem?]
  unfold RepeatsVertex At
  constructor
  · intro h
    simp only [not_forall, ne_eq, Decidable.not_not] at h
    obtain ⟨i, j, hij, hj, h⟩ := h
    refine ⟨i, j, p.vertices[j], hij, ?_, ?_⟩
    · rw [h]; simp
    · simp
  · rintro ⟨i, j, v, hij, hi, hj⟩ hc
    have hlt : j < p.vertices.length := by
      by_contra hh
      rw [List.getElem?_eq_none (by omega)] at hj
      cases hj
    exact hc i j hij hlt (hi.trans hj.symm)

/-! ### Ordered vertices -/

theorem Rank.unique {l : List VertexId} {v : VertexId} {a b : Nat} (ha : Rank l v a) (hb : Rank l v b) : a = b := by
  rcases Nat.lt_trichotomy a b with h | h | h
  · exact absurd hb.1 (ha.2 b h)
  · exact h
  · exact absurd ha.1 (hb.2 a h)

theorem get?_foldl_insert (l : List VertexId) (n : Nat) (m : HMap VertexId Nat) (v : VertexId) (k : Nat) :
    HMap.get? ((l.zipIdx n).foldl (fun m p => HMap.insert m p.1 p.2) m) v = some k ↔
      (∃ i, k = n + i ∧ Rank l v i) ∨ (v ∉ l ∧ HMap.get? m v = some k) := by
  induction l generalizing n m with
  | nil => simp [Rank]
  | cons a l ih =>
    rw [List.zipIdx_cons, List.foldl_cons, ih, HMap.get?_insert]
    constructor
    · rintro (⟨i, rfl, hi⟩ | ⟨hv, h⟩)
      · left
        refine ⟨i + 1, by omega, ?_, ?_⟩
        · simpa using hi.1
        · intro j hj
          cases j with
          | zero => omega
          | succ j => simpa using hi.2 j (by omega)
      · by_cases hva : v = a
        · subst hva
          simp only [if_true, Option.some.injEq] at h
          subst h
          left
          refine ⟨0, by omega, by simp, ?_⟩
          intro j hj
          cases j with
          | zero => omega
          | succ j =>
            intro hc
            exact hv (List.mem_iff_getElem?.2 ⟨j, by simpa using hc⟩)
        · rw [if_neg hva] at h
          right
          exact ⟨by simp [hva, hv], h⟩
    · rintro (⟨i, rfl, hi⟩ | ⟨hv, h⟩)
      · cases i with
        | zero =>
          have hva : a = v := by simpa using hi.1
          subst hva
          right
          refine ⟨?_, by simp⟩
          intro hc
          obtain ⟨j, hj⟩ := List.mem_iff_getElem?.1 hc
          exact hi.2 (j + 1) (by omega) (by simpa using hj)
        | succ i =>
          left
          refine ⟨i, by omega, by simpa using hi.1, ?_⟩
          intro j hj
          simpa using hi.2 (j + 1) (by omega)
      · simp only [List.mem_cons, not_or] at hv
        right
        exact ⟨hv.2, by rw [if_neg hv.1]; exact h⟩

theorem get?_vertexToIndex {l : List VertexId} {v : VertexId} {k : Nat} :
    HMap.get? (Constraint.vertexToIndex l) v = some k ↔ Rank l v k := by
  unfold Constraint.vertexToIndex
  rw [get?_foldl_insert]
  simp

theorem checkOrderFrom_iff (l : List VertexId) (n : Nat) (vs : List VertexId) :
    Constraint.checkOrderFrom (Constraint.vertexToIndex l) n vs = true ↔
      (∀ (j : Nat) v b, vs[j]? = some v → Rank l v b → n ≤ b) ∧
      (∀ (i j : Nat) u v a b, i < j → vs[i]? = some u → vs[j]? = some v → Rank l u a → Rank l v b → a ≤ b) := by
  induction vs generalizing n with
  | nil => simp [Constraint.checkOrderFrom]
  | cons w vs ih =>
    rw [Constraint.checkOrderFrom]
    cases hc : HMap.get? (Constraint.vertexToIndex l) w with
    | none =>
      simp only [ih]
      have hw : ∀ k, ¬ Rank l w k := fun k hk => by
        rw [get?_vertexToIndex.2 hk] at hc; cases hc
      constructor
      · rintro ⟨h1, h2⟩
        constructor
        · intro j v b hj hb
          cases j with
          | zero => simp at hj; subst hj; exact absurd hb (hw b)
          | succ j => exact h1 j v b (by simpa using hj) hb
        · intro i j u v a b hij hi hj ha hb
          cases i with
          | zero => simp at hi; subst hi; exact absurd ha (hw a)
          | succ i =>
            cases j with
            | zero => omega
            | succ j => exact h2 i j u v a b (by omega) (by simpa using hi) (by simpa using hj) ha hb
      · rintro ⟨h1, h2⟩
        exact ⟨fun j v b hj hb => h1 (j + 1) v b (by simpa using hj) hb,
          fun i j u v a b hij hi hj ha hb =>
            h2 (i + 1) (j + 1) u v a b (by omega) (by simpa using hi) (by simpa using hj) ha hb⟩
    | some k =>
      have hk := get?_vertexToIndex.1 hc
      by_cases hkn : k < n
      · simp only [hkn, if_true, Bool.false_eq_true, false_iff]
        rintro ⟨h1, _⟩
        have := h1 0 w k (by simp) hk
        omega
      · simp only [hkn, if_false, ih]
        constructor
        · rintro ⟨h1, h2⟩
          constructor
          · intro j v b hj hb
            cases j with
            | zero => simp at hj; subst hj; have := hk.unique hb; omega
            | succ j => have := h1 j v b (by simpa using hj) hb; omega
          · intro i j u v a b hij hi hj ha hb
            cases j with
            | zero => omega
            | succ j =>
              cases i with
              | zero =>
                simp at hi
                subst hi
                have := hk.unique ha
                have := h1 j v b (by simpa using hj) hb
                omega
              | succ i => exact h2 i j u v a b (by omega) (by simpa using hi) (by simpa using hj) ha hb
        · rintro ⟨h1, h2⟩
          exact ⟨fun j v b hj hb => h2 0 (j + 1) w v k b (by omega) (by simp) (by simpa using hj) hk hb,
            fun i j u v a b hij hi hj ha hb =>
              h2 (i + 1) (j + 1) u v a b (by omega) (by simpa using hi) (by simpa using hj) ha hb⟩

theorem checkVerticesOrder_iff {p : Path} {l : List VertexId} :
    Constraint.checkVerticesOrder p l = true ↔ InOrder l p := by
  unfold Constraint.checkVerticesOrder InOrder At
  rw [checkOrderFrom_iff]
  simp

theorem checkComplete_iff (c : Constraint) (sp : ScoredPath) :
    c.checkComplete sp = true ↔ Satisfies sp c := by
  induction c with
  | ContainsVertex v => rw [Satisfies, visits_iff_mem, ← containsVertex_iff_mem]; rfl
  | ContainsEdge e => exact pathContainsEdge_iff
  | OrderedVertices l => exact checkVerticesOrder_iff
  | ContainsCycle => exact containsCycle_iff
  | MinLength n => simp [Constraint.checkComplete, Satisfies, Path.size]
  | MaxLength n => exact decide_eq_true_iff
  | MinScore s => simp [Constraint.checkComplete, Satisfies]
  | MaxScore s => simp [Constraint.checkComplete, Satisfies]
  | Or a b iha ihb => simp [Constraint.checkComplete, Satisfies, iha, ihb]
  | Xor a b iha ihb =>
    rw [Satisfies, ← iha, ← ihb, Constraint.checkComplete]
    cases a.checkComplete sp <;> cases b.checkComplete sp <;> simp
  | And a b iha ihb => simp [Constraint.checkComplete, Satisfies, iha, ihb]
  | Not a iha =>
    rw [Satisfies, ← iha, Constraint.checkComplete]
    cases a.checkComplete sp <;> simp

/-! ### Prefixes -/

theorem At.mono {p q : Path} (h : p.vertices <+: q.vertices) {i : Nat} {v : VertexId} (hp : At p i v) : At q i v := by
  unfold At at *
  obtain ⟨t, ht⟩ := h
  rw [← ht, List.getElem?_append_left]
  · exact hp
  · exact (List.getElem?_eq_some_iff.1 hp).1

theorem Traverses.mono {p q : Path} (h : p.vertices <+: q.vertices) {e : Edge} : Traverses p e → Traverses q e :=
  fun ⟨i, h1, h2⟩ => ⟨i, h1.mono h, h2.mono h⟩

theorem RepeatsVertex.mono {p q : Path} (h : p.vertices <+: q.vertices) : RepeatsVertex p → RepeatsVertex q :=
  fun ⟨i, j, v, hij, h1, h2⟩ => ⟨i, j, v, hij, h1.mono h, h2.mono h⟩

theorem Visits.mono {p q : Path} (h : p.vertices <+: q.vertices) {v : VertexId} : Visits p v → Visits q v :=
  fun ⟨i, h1⟩ => ⟨i, h1.mono h⟩

theorem InOrder.anti {p q : Path} (h : p.vertices <+: q.vertices) {l : List VertexId} : InOrder l q → InOrder l p :=
  fun hq i j u v a b hij hi hj ha hb => hq i j u v a b hij (hi.mono h) (hj.mono h) ha hb

/-- Partial checking never rejects a prefix of a satisfying path (for scores that do not decrease). -/
theorem checkPartial_of_satisfies (c : Constraint) {p q : ScoredPath} (h : p.path.vertices <+: q.path.vertices)
    (hs : p.score ≤ q.score) (hq : Satisfies q c) : c.checkPartial p = true := by
  induction c with
  | ContainsVertex v => rfl
  | ContainsEdge e => rfl
  | OrderedVertices l => exact checkVerticesOrder_iff.2 (InOrder.anti h hq)
  | ContainsCycle => rfl
  | MinLength n => rfl
  | MaxLength n =>
    have := h.length_le
    simp only [Satisfies] at hq
    exact decide_eq_true_iff.2 (Nat.le_trans this hq)
  | MinScore s => rfl
  | MaxScore s =>
    simp only [Satisfies] at hq
    simp [Constraint.checkPartial]
    omega
  | Or a b iha ihb =>
    rcases hq with hq | hq
    · simp [Constraint.checkPartial, iha hq]
    · simp [Constraint.checkPartial, ihb hq]
  | Xor a b iha ihb =>
    rcases hq with hq | hq
    · simp [Constraint.checkPartial, iha hq.1]
    · simp [Constraint.checkPartial, ihb hq.2]
  | And a b iha ihb => simp [Constraint.checkPartial, iha hq.1, ihb hq.2]
  | Not a _ =>
    cases a <;> simp only [Constraint.checkPartial, Bool.not_eq_true', ← Bool.not_eq_true]
    · rw [containsVertex_iff_mem, ← visits_iff_mem]; exact fun hp => hq (hp.mono h)
    · rw [pathContainsEdge_iff]; exact fun hp => hq (hp.mono h)
    · rw [containsCycle_iff]; exact fun hp => hq (hp.mono h)

/-- The meaning of the partial check. -/
theorem checkPartial_iff (c : Constraint) (sp : ScoredPath) : c.checkPartial sp = true ↔ NotYetBroken sp c := by
  induction c with
  | ContainsVertex v => simp [Constraint.checkPartial, NotYetBroken]
  | ContainsEdge e => simp [Constraint.checkPartial, NotYetBroken]
  | OrderedVertices l => exact checkVerticesOrder_iff
  | ContainsCycle => simp [Constraint.checkPartial, NotYetBroken]
  | MinLength n => simp [Constraint.checkPartial, NotYetBroken]
  | MaxLength n => exact decide_eq_true_iff
  | MinScore s => simp [Constraint.checkPartial, NotYetBroken]
  | MaxScore s => simp [Constraint.checkPartial, NotYetBroken]
  | Or a b iha ihb => simp [Constraint.checkPartial, NotYetBroken, iha, ihb]
  | Xor a b iha ihb => simp [Constraint.checkPartial, NotYetBroken, iha, ihb]
  | And a b iha ihb => simp [Constraint.checkPartial, NotYetBroken, iha, ihb]
  | Not a _ =>
    cases a <;> simp only [Constraint.checkPartial, NotYetBroken, Bool.not_eq_true', ← Bool.not_eq_true]
    · rw [containsVertex_iff_mem, visits_iff_mem]
    · rw [pathContainsEdge_iff]
    · rw [containsCycle_iff]

theorem checkPartial_all (cs : List Constraint) (sp : ScoredPath) :
    (∀ c ∈ cs, c.checkPartial sp = true) ↔ ∀ c ∈ cs, NotYetBroken sp c := by
  simp only [checkPartial_iff]

end GC
