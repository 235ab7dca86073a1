/-
Property C112: Bellman-Ford and SPFA for weights of any size (builds with overflow checks).
-/
import Verif.Proofs.AnyWeights
import Verif.Props.ShortestPath
namespace GC
open DirectedGraph ShortestPath

/-- C112: whatever the weights, `bellman_ford` ends. It panics only if some walk from the start has a total weight that is no `i64`. When it
returns, it answers `None` exactly if a negative cycle can be reached and followed below `i64::MAX`, and otherwise the map of the walks
that are lightest among those that stay below `i64::MAX`. -/
theorem C112_bellman_ford (g : DirectedGraph) (h : Built g) (w : WeightFn) (start : VertexId) :
    (bellmanFord g w start = .panicked ∧ OverflowingWalk g w start) ∨
    (bellmanFord g w start = .done none ∧ NegativeCycleBelowMax g w start) ∨
    ∃ scores, bellmanFord g w start = .done (some scores) ∧ LightestBelowMax g w start scores ∧ ¬ NegativeCycleBelowMax g w start := by
  rcases bellmanFord_ends (w := w) (s := start) h.wf with ⟨r, hr⟩ | hp
  · obtain ⟨h1, h2⟩ := bellmanFord_any h.wf hr
    cases r with
    | none => exact .inr (.inl ⟨hr, h2 rfl⟩)
    | some sc => exact .inr (.inr ⟨sc, hr, h1 sc rfl⟩)
  · exact .inl hp

/-- C112: whatever the weights, `spfa` ends. It panics only if some walk from the start has a total weight that is no `i64`; otherwise it
returns the map of the walks that are lightest among those that stay below `i64::MAX`, and there is no negative cycle below `i64::MAX`. -/
theorem C112_spfa (g : DirectedGraph) (h : Built g) (w : WeightFn) (start : VertexId) :
    (Panics (spfa g w start) ∧ OverflowingWalk g w start) ∨
    ∃ scores, Returns (spfa g w start) scores ∧ LightestBelowMax g w start scores ∧ ¬ NegativeCycleBelowMax g w start := by
  rcases spfa_any (w := w) (s := start) h.wf with h1 | h1
  · exact .inr h1
  · exact .inl h1

/-- The lightest walks below `i64::MAX` have unique ends and weights. -/
theorem lightestBelowMax_unique {g : DirectedGraph} {w : WeightFn} {s : VertexId} {sc sc' : Scores} (h : LightestBelowMax g w s sc)
    (h' : LightestBelowMax g w s sc') (v : VertexId) :
    (HMap.get? sc v).map ScoredPath.score = (HMap.get? sc' v).map ScoredPath.score := by
  obtain ⟨_, a2, a3⟩ := h
  obtain ⟨_, b2, b3⟩ := h'
  have ha : (HMap.get? sc v).isSome = true ↔ ∃ l, WalkFromTo g s v l ∧ BelowMax w l := HMap.get?_isSome_iff.trans (a2 v)
  have hb : (HMap.get? sc' v).isSome = true ↔ ∃ l, WalkFromTo g s v l ∧ BelowMax w l := HMap.get?_isSome_iff.trans (b2 v)
  cases hx : HMap.get? sc v with
  | none =>
    cases hy : HMap.get? sc' v with
    | none => rfl
    | some q =>
      rw [hx] at ha
      rw [hy] at hb
      exact absurd (ha.2 (hb.1 rfl)) (by simp)
  | some p =>
    cases hy : HMap.get? sc' v with
    | none =>
      rw [hx] at ha
      rw [hy] at hb
      exact absurd (hb.2 (ha.1 rfl)) (by simp)
    | some q =>
      obtain ⟨c1, c2, c3, c4⟩ := a3 v p (HMap.get?_mem hx)
      obtain ⟨d1, d2, d3, d4⟩ := b3 v q (HMap.get?_mem hy)
      have e1 := c4 _ d1 d3
      have e2 := d4 _ c1 c3
      simp only [Option.map_some, Option.some.injEq]
      omega

/-- C112: whatever the weights, when `bellman_ford` and `spfa` both return, `bellman_ford` does not answer `None` and they report the same
vertices with the same scores. -/
theorem C112_agree (g : DirectedGraph) (h : Built g) (w : WeightFn) (start : VertexId) (r : Option Scores) (sp : Scores)
    (h1 : bellmanFord g w start = .done r) (h2 : Returns (spfa g w start) sp) :
    ∃ bf, r = some bf ∧ ∀ v, (HMap.get? bf v).map ScoredPath.score = (HMap.get? sp v).map ScoredPath.score := by
  rcases C112_spfa g h w start with ⟨hp, _⟩ | ⟨sp', h3, h4, h5⟩
  · exact absurd hp h2.not_panics
  · rw [← h2.unique h3] at h4
    rcases C112_bellman_ford g h w start with ⟨e, _⟩ | ⟨e, hn⟩ | ⟨bf, e, h6, _⟩
    · rw [e] at h1; cases h1
    · exact absurd hn h5
    · rw [e] at h1
      cases h1
      exact ⟨bf, rfl, lightestBelowMax_unique h6 h4⟩

/-- A walk without negative weights never weighs more than in the end. -/
theorem belowMax_of_nonneg {w : Edge → Int} (hw : ∀ e, 0 ≤ w e) {l : List VertexId} (h : walkWeight w l < 2 ^ 63 - 1) : BelowMax w l := by
  have nonneg : ∀ l, 0 ≤ walkWeight w l := by
    intro l
    induction l with
    | nil => exact Int.le_refl _
    | cons a l ih =>
      cases l with
      | nil => exact Int.le_refl _
      | cons b l =>
        have := hw ⟨a, b⟩
        simp only [walkWeight]
        omega
  rintro a b rfl
  rcases List.eq_nil_or_concat a with rfl | ⟨a', x, rfl⟩
  · simp [walkWeight]
  · rw [List.concat_eq_append, List.append_assoc, List.singleton_append, walkWeight_split] at h
    rw [List.concat_eq_append]
    have := nonneg (x :: b)
    omega

/-- C112: without negative weights, `bellman_ford` never answers `None`. When it or `spfa` returns, the vertices reported are exactly
those that some walk of weight below `i64::MAX` ends at, and every score is the least weight of all walks to that vertex. -/
theorem C112_nonnegative (g : DirectedGraph) (h : Built g) (w : WeightFn) (hw : ∀ e, 0 ≤ w e) (start : VertexId) :
    bellmanFord g w start ≠ .done none ∧
    ∀ scores, (bellmanFord g w start = .done (some scores) ∨ Returns (spfa g w start) scores) →
      (∀ v, v ∈ scores.map Prod.fst ↔ ∃ l, WalkFromTo g start v l ∧ walkWeight w l < 2 ^ 63 - 1) ∧
      ∀ v sp, (v, sp) ∈ scores → WalkFromTo g start v sp.path.vertices ∧ sp.score = walkWeight w sp.path.vertices ∧
        ∀ l, WalkFromTo g start v l → sp.score ≤ walkWeight w l := by
  have hn : ¬ NegativeCycleBelowMax g w start := by
    rintro ⟨v, a, c, _, _, h3, _⟩
    have : ∀ l, 0 ≤ walkWeight w l := by
      intro l
      induction l with
      | nil => exact Int.le_refl _
      | cons a l ih =>
        cases l with
        | nil => exact Int.le_refl _
        | cons b l =>
          have := hw ⟨a, b⟩
          simp only [walkWeight]
          omega
    have := this (v :: c)
    omega
  constructor
  · intro hc
    exact hn ((bellmanFord_any h.wf hc).2 rfl)
  · intro scores hs
    have hl : LightestBelowMax g w start scores := by
      rcases hs with hs | hs
      · exact ((bellmanFord_any h.wf hs).1 _ rfl).1
      · rcases C112_spfa g h w start with ⟨hp, _⟩ | ⟨sp', h3, h4, _⟩
        · exact absurd hp hs.not_panics
        · rw [hs.unique h3]; exact h4
    obtain ⟨_, a2, a3⟩ := hl
    constructor
    · intro v
      rw [a2]
      exact ⟨fun ⟨l, h1, h2⟩ => ⟨l, h1, h2.self⟩, fun ⟨l, h1, h2⟩ => ⟨l, h1, belowMax_of_nonneg hw h2⟩⟩
    · intro v sp hsp
      obtain ⟨b1, b2, b3, b4⟩ := a3 v sp hsp
      refine ⟨b1, b2, fun l hl => ?_⟩
      by_cases hlt : walkWeight w l < 2 ^ 63 - 1
      · exact b4 l hl (belowMax_of_nonneg hw hlt)
      · have := b3.self
        omega

/-- Example: 1→2 (2^62), 2→3 (2^62 - 2), 1→3 (2^63 - 1), 3→4 (1): weights that are far from small. -/
def exHuge : DirectedGraph := GraphCommand.applyCommands [.AddEdge 1 2, .AddEdge 2 3, .AddEdge 1 3, .AddEdge 3 4] .new

/-- Weights for `exHuge`. -/
def exHugeWeights : WeightFn := fun e =>
  if e = ⟨1, 2⟩ then 2 ^ 62 else if e = ⟨2, 3⟩ then 2 ^ 62 - 2 else if e = ⟨1, 3⟩ then 2 ^ 63 - 1 else if e = ⟨3, 4⟩ then 1 else 0

/-- `C112_nonnegative` and `C112_agree` for these weights. -/
example := C112_nonnegative exHuge (Built.new.applyCommands _) exHugeWeights (fun e => by unfold exHugeWeights; split_ifs <;> norm_num) 1
example (sp : Scores) (h : Returns (spfa exHuge exHugeWeights 1) sp) := C112_agree exHuge (Built.new.applyCommands _) exHugeWeights 1
  (some [(1, ⟨⟨[1]⟩, 0⟩), (2, ⟨⟨[1, 2]⟩, 2 ^ 62⟩), (3, ⟨⟨[1, 2, 3]⟩, 2 ^ 63 - 2⟩)])
  sp (by decide) h

/-- The vertex 4, which only a walk of weight `i64::MAX` gets to, is missing; the other scores are exact. -/
example : Built exHuge ∧ (∀ e, 0 ≤ exHugeWeights e) ∧ ¬ SmallWeights exHuge exHugeWeights ∧
    bellmanFord exHuge exHugeWeights 1 =
      .done (some [(1, ⟨⟨[1]⟩, 0⟩), (2, ⟨⟨[1, 2]⟩, 2 ^ 62⟩), (3, ⟨⟨[1, 2, 3]⟩, 2 ^ 63 - 2⟩)]) ∧
    spfa exHuge exHugeWeights 1 10 = .done [(1, ⟨⟨[1]⟩, 0⟩), (2, ⟨⟨[1, 2]⟩, 2 ^ 62⟩), (3, ⟨⟨[1, 2, 3]⟩, 2 ^ 63 - 2⟩)] := by
  refine ⟨Built.new.applyCommands _, fun e => ?_, fun h => ?_, by decide, by decide⟩
  · unfold exHugeWeights
    split_ifs <;> norm_num
  · exact absurd (h ⟨1, 3⟩ (by decide)) (by decide)

/-- With weights 2^62 on 1→2→3 both panic; with a negative cycle `bellman_ford` says `None`. -/
example : bellmanFord exHuge (fun _ => 2 ^ 62) 1 = .panicked ∧ spfa exHuge (fun _ => 2 ^ 62) 1 10 = .panicked ∧
    bellmanFord exNegative exNegWeights 1 = .done none := by decide

end GC
