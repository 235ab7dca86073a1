/-
C140: units and potentials of the weights.
-/
import Verif.Proofs.Reweighted
namespace GC
open DirectedGraph ShortestPath LongestPath TopoSort

/-- The weights of the example, doubled, with the potential 5 at vertex 3. -/
def exReweights : WeightFn := fun e => 2 * exWeights e + (if e.src = 3 then 5 else 0) - if e.dst = 3 then 5 else 0

theorem exReweighted : Reweighted exWeighted exWeights exReweights 2 (fun v => if v = 3 then 5 else 0) := fun _ _ _ => rfl

theorem exWeights_small : SmallWeights exWeighted exWeights := by
  have : ∀ e ∈ exWeighted.edges, |exWeights e| * (exWeighted.vertexCount : Int) < 2 ^ 63 - 1 := by decide
  exact fun e he => this e (exWeighted_built.wf.mem_edges.2 he)

theorem exReweights_small : SmallWeights exWeighted exReweights := by
  have : ∀ e ∈ exWeighted.edges, |exReweights e| * (exWeighted.vertexCount : Int) < 2 ^ 63 - 1 := by decide
  exact fun e he => this e (exWeighted_built.wf.mem_edges.2 he)

/-- bellman_ford with changed weights reports the same vertices with changed scores, or a negative cycle in both cases. -/
theorem C140_bellman_ford (g : DirectedGraph) (h : Built g) (w w' : WeightFn) (c : Int) (hc : 0 < c) (p : VertexId → Int)
    (hp : Reweighted g w w' c p) (hw : SmallWeights g w) (hw' : SmallWeights g w') (s : VertexId) :
    (∀ sc, bellmanFord g w s = .done (some sc) → ∃ sc', bellmanFord g w' s = .done (some sc') ∧ RescoredBy c p s sc sc') ∧
    (∀ sc', bellmanFord g w' s = .done (some sc') → ∃ sc, bellmanFord g w s = .done (some sc) ∧ RescoredBy c p s sc sc') ∧
    ∀ r r', bellmanFord g w s = .done r → bellmanFord g w' s = .done r' → (r = none ↔ r' = none) := by
  refine ⟨fun sc hr => ?_, fun sc' hr => ?_, fun r r' hr hr' => ?_⟩
  · have h1 : ¬ NegativeCycle g w s := fun hn => by simpa using (C44_none_iff_negative_cycle g h w hw s _ hr).2 hn
    obtain ⟨sc', h2, h3⟩ := C43_bellman_ford_returns g h w' hw' s fun hn => h1 ((hp.negativeCycle hc s).2 hn)
    exact ⟨sc', h2, hp.lightest hc (C43_bellman_ford_exact g h w hw s sc hr) h3⟩
  · have h1 : ¬ NegativeCycle g w' s := fun hn => by simpa using (C44_none_iff_negative_cycle g h w' hw' s _ hr).2 hn
    obtain ⟨sc, h2, h3⟩ := C43_bellman_ford_returns g h w hw s fun hn => h1 ((hp.negativeCycle hc s).1 hn)
    exact ⟨sc, h2, hp.lightest hc h3 (C43_bellman_ford_exact g h w' hw' s sc' hr)⟩
  · rw [C44_none_iff_negative_cycle g h w hw s r hr, C44_none_iff_negative_cycle g h w' hw' s r' hr', hp.negativeCycle hc s]

/-- Example: the score of vertex 3 is 1 before and 2·1 + 0 − 5 after the change. -/
example : Built exWeighted ∧ Reweighted exWeighted exWeights exReweights 2 (fun v => if v = 3 then 5 else 0) ∧
    SmallWeights exWeighted exWeights ∧ SmallWeights exWeighted exReweights ∧
    bellmanFord exWeighted exWeights 1 =
      .done (some [(1, ⟨⟨[1]⟩, 0⟩), (2, ⟨⟨[1, 3, 2]⟩, -1⟩), (3, ⟨⟨[1, 3]⟩, 1⟩), (4, ⟨⟨[1, 3, 2, 4]⟩, 2⟩)]) ∧
    bellmanFord exWeighted exReweights 1 =
      .done (some [(1, ⟨⟨[1]⟩, 0⟩), (2, ⟨⟨[1, 3, 2]⟩, -2⟩), (3, ⟨⟨[1, 3]⟩, -3⟩), (4, ⟨⟨[1, 3, 2, 4]⟩, 4⟩)]) :=
  ⟨exWeighted_built, exReweighted, exWeights_small, exReweights_small, by decide, by decide⟩

/-- spfa with changed weights: the same, and it panics in both cases or in none. -/
theorem C140_spfa (g : DirectedGraph) (h : Built g) (w w' : WeightFn) (c : Int) (hc : 0 < c) (p : VertexId → Int)
    (hp : Reweighted g w w' c p) (hw : SmallWeights g w) (hw' : SmallWeights g w') (s : VertexId) :
    (∃ sc sc', Returns (spfa g w s) sc ∧ Returns (spfa g w' s) sc' ∧ RescoredBy c p s sc sc') ∨
    (Panics (spfa g w s) ∧ Panics (spfa g w' s)) := by
  obtain ⟨h1, h2⟩ := C45_spfa_returns_iff g h w hw s
  obtain ⟨h1', h2'⟩ := C45_spfa_returns_iff g h w' hw' s
  by_cases hn : NegativeCycle g w s
  · exact .inr ⟨C45_spfa_negative_cycle g h w hw s hn, C45_spfa_negative_cycle g h w' hw' s ((hp.negativeCycle hc s).1 hn)⟩
  · obtain ⟨sc, h3⟩ := h1.2 hn
    obtain ⟨sc', h3'⟩ := h1'.2 fun hn' => hn ((hp.negativeCycle hc s).2 hn')
    exact .inl ⟨sc, sc', h3, h3', hp.lightest hc (h2 sc h3) (h2' sc' h3')⟩

/-- Example: the score of vertex 3 is 1 before and 2·1 + 0 − 5 after the change. -/
example : Built exWeighted ∧ Reweighted exWeighted exWeights exReweights 2 (fun v => if v = 3 then 5 else 0) ∧
    SmallWeights exWeighted exWeights ∧ SmallWeights exWeighted exReweights ∧
    spfa exWeighted exWeights 1 20 =
      .done [(1, ⟨⟨[1]⟩, 0⟩), (2, ⟨⟨[1, 3, 2]⟩, -1⟩), (3, ⟨⟨[1, 3]⟩, 1⟩), (4, ⟨⟨[1, 3, 2, 4]⟩, 2⟩)] ∧
    spfa exWeighted exReweights 1 20 =
      .done [(1, ⟨⟨[1]⟩, 0⟩), (2, ⟨⟨[1, 3, 2]⟩, -2⟩), (3, ⟨⟨[1, 3]⟩, -3⟩), (4, ⟨⟨[1, 3, 2, 4]⟩, 4⟩)] :=
  ⟨exWeighted_built, exReweighted, exWeights_small, exReweights_small, by decide, by decide⟩

/-- dag_shortest_paths with changed weights: the same, and it panics in both cases or in none. -/
theorem C140_dag_shortest_paths (g : DirectedGraph) (h : Built g) (ha : Acyclic g) (w w' : WeightFn) (c : Int) (hc : 0 < c) (p : VertexId → Int)
    (hp : Reweighted g w w' c p) (hw : SmallWeights g w) (hw' : SmallWeights g w') (s : VertexId) :
    (∃ sc sc', Returns (dagShortestPaths ⟨g⟩ w s) sc ∧ Returns (dagShortestPaths ⟨g⟩ w' s) sc' ∧ RescoredBy c p s sc sc') ∨
    (Panics (dagShortestPaths ⟨g⟩ w s) ∧ Panics (dagShortestPaths ⟨g⟩ w' s)) := by
  obtain ⟨o, h1, h2, h3⟩ := C41_panics_iff g h ha w hw s
  obtain ⟨o', h1', h2', h3'⟩ := C41_panics_iff g h ha w' hw' s
  cases h1.unique h1'
  rcases h3 with ⟨sc, h3⟩ | h3
  · rcases h3' with ⟨sc', h3'⟩ | h3'
    · exact .inl ⟨sc, sc', h3, h3', hp.lightest hc (C40_dag_shortest_paths g h ha w s sc h3) (C40_dag_shortest_paths g h ha w' s sc' h3')⟩
    · exact absurd (h2.2 (h2'.1 h3')) h3.not_panics
  · exact .inr ⟨h3, h2'.2 (h2.1 h3)⟩

/-- Example: the score of vertex 3 is 1 before and 2·1 + 0 − 5 after the change. -/
example : Built exWeighted ∧ Acyclic exWeighted ∧ Reweighted exWeighted exWeights exReweights 2 (fun v => if v = 3 then 5 else 0) ∧
    SmallWeights exWeighted exWeights ∧ SmallWeights exWeighted exReweights ∧
    dagShortestPaths ⟨exWeighted⟩ exWeights 1 10 =
      .done [(1, ⟨⟨[1]⟩, 0⟩), (2, ⟨⟨[1, 3, 2]⟩, -1⟩), (3, ⟨⟨[1, 3]⟩, 1⟩), (4, ⟨⟨[1, 3, 2, 4]⟩, 2⟩)] ∧
    dagShortestPaths ⟨exWeighted⟩ exReweights 1 10 =
      .done [(1, ⟨⟨[1]⟩, 0⟩), (2, ⟨⟨[1, 3, 2]⟩, -2⟩), (3, ⟨⟨[1, 3]⟩, -3⟩), (4, ⟨⟨[1, 3, 2, 4]⟩, 4⟩)] :=
  ⟨exWeighted_built, exWeighted_acyclic, exReweighted, exWeights_small, exReweights_small, by decide, by decide⟩

/-- dag_longest_paths with changed weights: the same, and it panics in both cases or in none. -/
theorem C140_dag_longest_paths (g : DirectedGraph) (h : Built g) (ha : Acyclic g) (w w' : WeightFn) (c : Int) (hc : 0 < c) (p : VertexId → Int)
    (hp : Reweighted g w w' c p) (hw : SmallWeights g w) (hw' : SmallWeights g w') (s : VertexId) :
    (∃ sc sc', Returns (dagLongestPaths ⟨g⟩ w s) sc ∧ Returns (dagLongestPaths ⟨g⟩ w' s) sc' ∧ RescoredBy c p s sc sc') ∨
    (Panics (dagLongestPaths ⟨g⟩ w s) ∧ Panics (dagLongestPaths ⟨g⟩ w' s)) := by
  obtain ⟨o, h1, h2, h3⟩ := C42_panics_iff g h ha w hw s
  obtain ⟨o', h1', h2', h3'⟩ := C42_panics_iff g h ha w' hw' s
  cases h1.unique h1'
  rcases h3 with ⟨sc, h3⟩ | h3
  · rcases h3' with ⟨sc', h3'⟩ | h3'
    · exact .inl ⟨sc, sc', h3, h3', hp.heaviest hc (C42_dag_longest_paths g h ha w s sc h3) (C42_dag_longest_paths g h ha w' s sc' h3')⟩
    · exact absurd (h2.2 (h2'.1 h3')) h3.not_panics
  · exact .inr ⟨h3, h2'.2 (h2.1 h3)⟩

/-- Example: the score of vertex 3 is 1 before and 2·1 + 0 − 5 after the change. -/
example : Built exWeighted ∧ Acyclic exWeighted ∧ Reweighted exWeighted exWeights exReweights 2 (fun v => if v = 3 then 5 else 0) ∧
    SmallWeights exWeighted exWeights ∧ SmallWeights exWeighted exReweights ∧
    dagLongestPaths ⟨exWeighted⟩ exWeights 1 10 =
      .done [(1, ⟨⟨[1]⟩, 0⟩), (2, ⟨⟨[1, 2]⟩, 4⟩), (3, ⟨⟨[1, 3]⟩, 1⟩), (4, ⟨⟨[1, 2, 4]⟩, 7⟩)] ∧
    dagLongestPaths ⟨exWeighted⟩ exReweights 1 10 =
      .done [(1, ⟨⟨[1]⟩, 0⟩), (2, ⟨⟨[1, 2]⟩, 8⟩), (3, ⟨⟨[1, 3]⟩, -3⟩), (4, ⟨⟨[1, 2, 4]⟩, 14⟩)] :=
  ⟨exWeighted_built, exWeighted_acyclic, exReweighted, exWeights_small, exReweights_small, by decide, by decide⟩

/-- The longest paths are the shortest ones for the negated weights, with negated scores. -/
theorem C140_negated (g : DirectedGraph) (h : Built g) (ha : Acyclic g) (w : WeightFn) (s : VertexId) (sc sc' : Scores)
    (h1 : Returns (dagLongestPaths ⟨g⟩ w s) sc) (h2 : Returns (dagShortestPaths ⟨g⟩ (fun e => -w e) s) sc') (v : VertexId) (k : Int) :
    (∃ sp, (v, sp) ∈ sc ∧ sp.score = k) ↔ ∃ sp, (v, sp) ∈ sc' ∧ sp.score = -k := by
  obtain ⟨a1, a2, a3⟩ := C42_dag_longest_paths g h ha w s sc h1
  obtain ⟨b1, b2, b3⟩ := C40_dag_shortest_paths g h ha _ s sc' h2
  have hneg : ∀ l, walkWeight (fun e => -w e) l = -walkWeight w l := by
    intro l
    induction l with
    | nil => rfl
    | cons a l ih =>
      rcases l with _ | ⟨b, l⟩
      · rfl
      · simp only [walkWeight] at ih ⊢
        rw [ih]
        omega
  have key : ∀ {v a b}, (v, a) ∈ sc → (v, b) ∈ sc' → b.score = -a.score := by
    intro v a b ha hb
    obtain ⟨p1, p2, p3⟩ := a3 v a ha
    obtain ⟨q1, q2, q3⟩ := b3 v b hb
    have l1 := p3 _ q1
    have l2 := q3 _ p1
    rw [hneg] at q2 l2
    omega
  constructor
  · rintro ⟨a, ha, rfl⟩
    obtain ⟨⟨v', b⟩, hb, e⟩ := List.mem_map.1 ((b2 v).2 ((a2 v).1 (List.mem_map.2 ⟨_, ha, rfl⟩)))
    simp only at e
    subst e
    exact ⟨b, hb, key ha hb⟩
  · rintro ⟨b, hb, e1⟩
    obtain ⟨⟨v', a⟩, ha, e⟩ := List.mem_map.1 ((a2 v).2 ((b2 v).1 (List.mem_map.2 ⟨_, hb, rfl⟩)))
    simp only at e
    subst e
    exact ⟨a, ha, by have := key ha hb; omega⟩

/-- Example: the heaviest walks, and the lightest ones for the negated weights. -/
example : Built exWeighted ∧ Acyclic exWeighted ∧
    dagLongestPaths ⟨exWeighted⟩ exWeights 1 10 =
      .done [(1, ⟨⟨[1]⟩, 0⟩), (2, ⟨⟨[1, 2]⟩, 4⟩), (3, ⟨⟨[1, 3]⟩, 1⟩), (4, ⟨⟨[1, 2, 4]⟩, 7⟩)] ∧
    dagShortestPaths ⟨exWeighted⟩ (fun e => -exWeights e) 1 10 =
      .done [(1, ⟨⟨[1]⟩, 0⟩), (2, ⟨⟨[1, 2]⟩, -4⟩), (3, ⟨⟨[1, 3]⟩, -1⟩), (4, ⟨⟨[1, 2, 4]⟩, -7⟩)] :=
  ⟨exWeighted_built, exWeighted_acyclic, by decide, by decide⟩

end GC
