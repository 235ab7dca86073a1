/-
C149, weighted: self-loops that weigh nothing negative do not matter.
-/
import Verif.Props.Loops
import Verif.Props.SameFrom
namespace GC
open DirectedGraph ShortestPath

theorem WalkFromTo.eq_cons {g : DirectedGraph} {x u : VertexId} {l : List VertexId} (h : WalkFromTo g x u l) : ∃ t, l = x :: t := by
  cases l with
  | nil => cases h.2.1
  | cons a t => cases h.2.1; exact ⟨t, rfl⟩

/-- A walk without its self-loops is not heavier and stays below the maximum. -/
theorem SameButLoops.strip {g g' : DirectedGraph} (h : SameButLoops g g') {w : WeightFn} (hw : ∀ v, Adj g v v → 0 ≤ w ⟨v, v⟩) {x : VertexId}
    {a a' : List VertexId} (hle : walkWeight w (a' ++ [x]) ≤ walkWeight w (a ++ [x])) (hb' : BelowMax w (a' ++ [x])) :
    ∀ n l u, l.length ≤ n → WalkFromTo g x u l → BelowMax w (a ++ l) →
      ∃ l', WalkFromTo g' x u l' ∧ walkWeight w l' ≤ walkWeight w l ∧ BelowMax w (a' ++ l') := by
  intro n
  induction n with
  | zero => intro l u hl hwalk; exact absurd (List.length_eq_zero_iff.1 (Nat.le_zero.1 hl)) hwalk.ne_nil
  | succ n ih =>
    intro l u hl hwalk hb
    rcases hwalk.snoc_cases with ⟨rfl, rfl⟩ | ⟨y, l0, rfl, h0, ha⟩
    · exact ⟨[x], .single x, le_refl _, hb'⟩
    · rw [List.length_append, List.length_singleton] at hl
      rw [← List.append_assoc] at hb
      obtain ⟨l', h1, h2, h3⟩ := ih l0 y (by omega) h0 hb.left
      have hs := walkWeight_snoc (w := w) h0 u
      by_cases e : y = u
      · subst e
        exact ⟨l', h1, by have := hw y ha; omega, h3⟩
      · have hs' := walkWeight_snoc (w := w) h1 u
        refine ⟨l' ++ [u], h1.snoc ((h.2 y u e).1 ha), by omega, ?_⟩
        rw [← List.append_assoc]
        refine h3.snoc ?_
        have hself := hb.self
        obtain ⟨t, rfl⟩ := h0.eq_cons
        obtain ⟨t', rfl⟩ := h1.eq_cons
        rw [List.append_assoc, List.cons_append, walkWeight_split] at hself ⊢
        rw [List.cons_append] at hs hs'
        omega

theorem SameButLoops.strip' {g g' : DirectedGraph} (h : SameButLoops g g') {w : WeightFn} (hw : ∀ v, Adj g v v → 0 ≤ w ⟨v, v⟩) {x u : VertexId}
    {l : List VertexId} (hl : WalkFromTo g x u l) (hb : BelowMax w l) :
    ∃ l', WalkFromTo g' x u l' ∧ walkWeight w l' ≤ walkWeight w l ∧ BelowMax w l' :=
  h.strip (a := []) (a' := []) hw (le_refl _) (.single x) _ l u (le_refl _) hl hb

theorem SameButLoops.negative {g g' : DirectedGraph} (h : SameButLoops g g') {w : WeightFn} (hw : ∀ v, Adj g v v → 0 ≤ w ⟨v, v⟩) {s : VertexId}
    (hn : NegativeCycleBelowMax g w s) : NegativeCycleBelowMax g' w s := by
  obtain ⟨v, a, c, h1, h2, h3, h4⟩ := hn
  obtain ⟨l1, k1, k2, k3⟩ := h.strip' hw h1 (BelowMax.left (b := c) (by simpa using h4))
  have hl1 : l1 = l1.dropLast ++ [v] := (List.dropLast_append_getLast? v k1.2.2).symm
  rw [hl1] at k1 k2 k3
  obtain ⟨l2, m1, m2, m3⟩ := h.strip hw k2 k3 _ (v :: c) v (le_refl _) h2 h4
  obtain ⟨t, rfl⟩ := m1.eq_cons
  exact ⟨v, _, t, k1, m1, by omega, m3⟩

/-- Lightest walks of graphs that differ in such self-loops have the same weights. -/
theorem SameButLoops.scores {g g' : DirectedGraph} (h : SameButLoops g g') {w : WeightFn} (hw : ∀ v, Adj g v v → 0 ≤ w ⟨v, v⟩)
    (hw' : ∀ v, Adj g' v v → 0 ≤ w ⟨v, v⟩) {s : VertexId} {m m' : Scores} (hm : LightestBelowMax g w s m) (hm' : LightestBelowMax g' w s m')
    (v : VertexId) : (HMap.get? m v).map ScoredPath.score = (HMap.get? m' v).map ScoredPath.score := by
  obtain ⟨_, a2, a3⟩ := hm
  obtain ⟨_, b2, b3⟩ := hm'
  have hab : (HMap.get? m v).isSome = true ↔ (HMap.get? m' v).isSome = true := by
    refine (HMap.get?_isSome_iff.trans (a2 v)).trans (Iff.trans ⟨?_, ?_⟩ (HMap.get?_isSome_iff.trans (b2 v)).symm)
    · rintro ⟨l, h1, h2⟩
      obtain ⟨l', k1, _, k3⟩ := h.strip' hw h1 h2
      exact ⟨l', k1, k3⟩
    · rintro ⟨l, h1, h2⟩
      obtain ⟨l', k1, _, k3⟩ := h.symm.strip' hw' h1 h2
      exact ⟨l', k1, k3⟩
  cases hx : HMap.get? m v with
  | none =>
    cases hy : HMap.get? m' v with
    | none => rfl
    | some q => rw [hx, hy] at hab; simp at hab
  | some p =>
    cases hy : HMap.get? m' v with
    | none => rw [hx, hy] at hab; simp at hab
    | some q =>
      obtain ⟨c1, c2, c3, c4⟩ := a3 v p (HMap.get?_mem hx)
      obtain ⟨d1, d2, d3, d4⟩ := b3 v q (HMap.get?_mem hy)
      obtain ⟨l, k1, k2, k3⟩ := h.strip' hw c1 c3
      obtain ⟨l', k1', k2', k3'⟩ := h.symm.strip' hw' d1 d3
      have e1 := c4 _ k1' k3'
      have e2 := d4 _ k1 k3
      simp only [Option.map_some, Option.some.injEq]
      omega

/-- C149: bellman_ford and spfa give the same scores whenever they return in both graphs, and bellman_ford the same answer about negative
cycles, if no self-loop has a negative weight. -/
theorem C149_weights (g g' : DirectedGraph) (h : Built g) (h' : Built g') (hs : SameButLoops g g') (w : WeightFn)
    (hw : ∀ v, Adj g v v ∨ Adj g' v v → 0 ≤ w ⟨v, v⟩) (s : VertexId) :
    (∀ r r', bellmanFord g w s = .done r → bellmanFord g' w s = .done r' →
      (r = none ↔ r' = none) ∧ ∀ m m', r = some m → r' = some m' → ∀ v, (HMap.get? m v).map ScoredPath.score = (HMap.get? m' v).map ScoredPath.score) ∧
    ∀ m m', Returns (spfa g w s) m → Returns (spfa g' w s) m' → ∀ v, (HMap.get? m v).map ScoredPath.score = (HMap.get? m' v).map ScoredPath.score := by
  have hw1 : ∀ v, Adj g v v → 0 ≤ w ⟨v, v⟩ := fun v hv => hw v (.inl hv)
  have hw2 : ∀ v, Adj g' v v → 0 ≤ w ⟨v, v⟩ := fun v hv => hw v (.inr hv)
  refine ⟨?_, ?_⟩
  · intro r r' hr hr'
    rcases C112_bellman_ford g h w s with ⟨e, _⟩ | ⟨e, a⟩ | ⟨m, e, a, b⟩
    · rw [e] at hr; cases hr
    · rw [e] at hr
      cases hr
      rcases C112_bellman_ford g' h' w s with ⟨e', _⟩ | ⟨e', a'⟩ | ⟨m', e', a', b'⟩
      · rw [e'] at hr'; cases hr'
      · rw [e'] at hr'; cases hr'; exact ⟨Iff.rfl, fun _ _ hm => by cases hm⟩
      · exact absurd (hs.negative hw1 a) b'
    · rw [e] at hr
      cases hr
      rcases C112_bellman_ford g' h' w s with ⟨e', _⟩ | ⟨e', a'⟩ | ⟨m', e', a', b'⟩
      · rw [e'] at hr'; cases hr'
      · exact absurd (hs.symm.negative hw2 a') b
      · rw [e'] at hr'
        cases hr'
        refine ⟨by simp, fun x x' hx hx' v => ?_⟩
        cases hx
        cases hx'
        exact hs.scores hw1 hw2 a a' v
  · intro m m' hm hm' v
    rcases C112_spfa g h w s with ⟨hp, _⟩ | ⟨x, h1, h2, _⟩
    · exact absurd hp hm.not_panics
    · rcases C112_spfa g' h' w s with ⟨hp, _⟩ | ⟨x', h1', h2', _⟩
      · exact absurd hp hm'.not_panics
      · cases h1.unique hm
        cases h1'.unique hm'
        exact hs.scores hw1 hw2 h2 h2' v

/-- Each edge weighs 2, the loops nothing. -/
def exLoopWeights : WeightFn := fun e => if e.src = e.dst then 0 else 2

example (v : VertexId) : 0 ≤ exLoopWeights ⟨v, v⟩ := by simp [exLoopWeights]

/-- The scores of the example graph with and without loops. -/
example : (∃ m m', bellmanFord exLoops exLoopWeights 1 = .done (some m) ∧ bellmanFord exIterGraph exLoopWeights 1 = .done (some m') ∧
      [1, 2, 3, 4].map (fun v => (HMap.get? m v).map ScoredPath.score) = [some 0, some 2, some 2, some 4] ∧
      [1, 2, 3, 4].map (fun v => (HMap.get? m' v).map ScoredPath.score) = [some 0, some 2, some 2, some 4]) ∧
    (∃ m, spfa exLoops exLoopWeights 1 12 = .done m ∧ (HMap.get? m 4).map ScoredPath.score = some 4) := by
  refine ⟨⟨_, _, rfl, rfl, ?_, ?_⟩, _, rfl, ?_⟩ <;> decide

/-- A loop of negative weight is a negative cycle. -/
example : bellmanFord exLoops (fun e => if e.src = e.dst then -1 else 2) 1 = .done none ∧
    bellmanFord exIterGraph (fun e => if e.src = e.dst then -1 else 2) 1 ≠ .done none := by
  constructor <;> decide

end GC
