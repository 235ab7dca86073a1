/-
C141: the scores fit together.
-/
import Verif.Proofs.Fit
import Verif.Props.Reweighted
namespace GC
open DirectedGraph ShortestPath LongestPath TopoSort

theorem spfa_mono (g : DirectedGraph) (w : WeightFn) (s : VertexId) : Mono (spfa g w s) := by
  refine Mono.loop (fun x => ?_) _
  unfold spfaStep
  split
  · exact Mono.ret _
  · exact Mono.bind (Mono.lift _) fun _ => Mono.ret _

theorem exReports : Reports exWeighted exWeights 1 [(1, ⟨⟨[1]⟩, 0⟩), (2, ⟨⟨[1, 3, 2]⟩, -1⟩), (3, ⟨⟨[1, 3]⟩, 1⟩), (4, ⟨⟨[1, 3, 2, 4]⟩, 2⟩)] :=
  .inl (by decide)

theorem exReports3 : Reports exWeighted exWeights 3 [(3, ⟨⟨[3]⟩, 0⟩), (2, ⟨⟨[3, 2]⟩, -2⟩), (4, ⟨⟨[3, 2, 4]⟩, 1⟩)] :=
  .inr (.inl ((spfa_mono _ _ _).returns (n := 20) (by decide)))

/-- The scores satisfy Bellman's equations: the start has score 0, no edge improves a score, and every other vertex has its score from an edge. -/
theorem C141_equations (g : DirectedGraph) (h : Built g) (w : WeightFn) (hw : SmallWeights g w) (s : VertexId) (sc : Scores) (hr : Reports g w s sc) :
    HasScore sc s 0 ∧
    (∀ u v a, Adj g u v → HasScore sc u a → ∃ b, HasScore sc v b ∧ b ≤ a + w ⟨u, v⟩) ∧
    ∀ v b, HasScore sc v b → v ≠ s → ∃ u a, Adj g u v ∧ HasScore sc u a ∧ b = a + w ⟨u, v⟩ :=
  have hl := reports_lightest h hw hr
  ⟨hl.score_start, fun _ _ _ => hl.edge, fun _ _ => hl.last_edge⟩

example : Built exWeighted ∧ SmallWeights exWeighted exWeights ∧ Adj exWeighted 3 2 ∧ exWeights ⟨3, 2⟩ = -2 :=
  ⟨exWeighted_built, exWeights_small, by unfold Adj; decide, by decide⟩

/-- What is reported for one start, and for a vertex of it as the start, satisfies the triangle inequality; the functions may differ. -/
theorem C141_triangle (g : DirectedGraph) (h : Built g) (w : WeightFn) (hw : SmallWeights g w) (s u : VertexId) (sc su : Scores)
    (hs : Reports g w s sc) (hu : Reports g w u su) (a : Int) (ha : HasScore sc u a) :
    (∀ v b, HasScore su v b → ∃ c, HasScore sc v c ∧ c ≤ a + b) ∧ ∀ b, HasScore su s b → 0 ≤ a + b := by
  have h1 := reports_lightest h hw hs
  have h2 := reports_lightest h hw hu
  refine ⟨fun v b => h1.triangle h2 ha, fun b hb => ?_⟩
  obtain ⟨⟨l, hl, rfl⟩, _⟩ := (h1.hasScore_iff a).1 ha
  obtain ⟨⟨m, hm, rfl⟩, _⟩ := (h2.hasScore_iff b).1 hb
  obtain ⟨n, hn, e⟩ := walk_append (w := w) hl hm
  rw [← e]
  exact h1.closed_nonneg .refl hn

/-- Example: 2 ≤ 1 + 1 for the vertices 1, 3, 4. -/
example : HasScore [(1, ⟨⟨[1]⟩, 0⟩), (2, ⟨⟨[1, 3, 2]⟩, -1⟩), (3, ⟨⟨[1, 3]⟩, 1⟩), (4, ⟨⟨[1, 3, 2, 4]⟩, 2⟩)] 3 1 ∧
    HasScore [(3, ⟨⟨[3]⟩, 0⟩), (2, ⟨⟨[3, 2]⟩, -2⟩), (4, ⟨⟨[3, 2, 4]⟩, 1⟩)] 4 1 :=
  ⟨⟨_, .tail _ (.tail _ (.head _)), rfl⟩, ⟨_, .tail _ (.tail _ (.head _)), rfl⟩⟩

/-- Along a reported path: the part up to any of its vertices `u` has the weight reported for `u`, and the rest has the weight that is reported when
`u` is the start. -/
theorem C141_along_paths (g : DirectedGraph) (h : Built g) (w : WeightFn) (hw : SmallWeights g w) (s : VertexId) (sc : Scores) (hs : Reports g w s sc)
    (v u : VertexId) (sp : ScoredPath) (hm : (v, sp) ∈ sc) (l1 l2 : List VertexId) (hl : sp.path.vertices = l1 ++ u :: l2) :
    ∃ a b, a + b = sp.score ∧ HasScore sc u a ∧ walkWeight w (l1 ++ [u]) = a ∧ walkWeight w (u :: l2) = b ∧
      ∀ su, Reports g w u su → HasScore su v b := by
  have h1 := reports_lightest h hw hs
  obtain ⟨h2, h3⟩ := h1.through hm hl
  have h4 := (h1.2.2 v sp hm).2.1
  rw [hl, walkWeight_split] at h4
  refine ⟨_, _, h4.symm, h2, rfl, rfl, fun su hu => ?_⟩
  have := h3 su (reports_lightest h hw hu)
  rwa [h4, add_sub_cancel_left] at this

/-- Example: the path 1, 3, 2, 4 at the vertex 3. -/
example : walkWeight exWeights ([1] ++ [3]) = 1 ∧ walkWeight exWeights (3 :: [2, 4]) = 1 ∧ walkWeight exWeights [1, 3, 2, 4] = 2 := by decide

/-- The same equations for the heaviest walks. -/
theorem C141_longest_equations (g : DirectedGraph) (h : Built g) (ha : Acyclic g) (w : WeightFn) (s : VertexId) (sc : Scores)
    (hr : Returns (dagLongestPaths ⟨g⟩ w s) sc) :
    HasScore sc s 0 ∧
    (∀ u v a, Adj g u v → HasScore sc u a → ∃ b, HasScore sc v b ∧ a + w ⟨u, v⟩ ≤ b) ∧
    ∀ v b, HasScore sc v b → v ≠ s → ∃ u a, Adj g u v ∧ HasScore sc u a ∧ b = a + w ⟨u, v⟩ := by
  have hl := (C42_dag_longest_paths g h ha w s sc hr).neg
  refine ⟨by simpa using hasScore_neg.1 hl.score_start, fun u v a he hu => ?_, fun v b hv hne => ?_⟩
  · obtain ⟨b, h1, h2⟩ := hl.edge he (hasScore_neg.2 (by rwa [Int.neg_neg]) : HasScore (negScores sc) u (-a))
    exact ⟨-b, hasScore_neg.1 h1, by omega⟩
  · obtain ⟨u, a, h1, h2, h3⟩ := hl.last_edge (hasScore_neg.2 (by rwa [Int.neg_neg]) : HasScore (negScores sc) v (-b)) hne
    exact ⟨u, -a, h1, hasScore_neg.1 h2, by omega⟩

example : Built exWeighted ∧ Acyclic exWeighted ∧
    dagLongestPaths ⟨exWeighted⟩ exWeights 1 10 =
      .done [(1, ⟨⟨[1]⟩, 0⟩), (2, ⟨⟨[1, 2]⟩, 4⟩), (3, ⟨⟨[1, 3]⟩, 1⟩), (4, ⟨⟨[1, 2, 4]⟩, 7⟩)] :=
  ⟨exWeighted_built, exWeighted_acyclic, by decide⟩

/-- The triangle inequality for the heaviest walks. -/
theorem C141_longest_triangle (g : DirectedGraph) (h : Built g) (ha : Acyclic g) (w : WeightFn) (s u : VertexId) (sc su : Scores)
    (hs : Returns (dagLongestPaths ⟨g⟩ w s) sc) (hu : Returns (dagLongestPaths ⟨g⟩ w u) su) (v : VertexId) (a b : Int)
    (h1 : HasScore sc u a) (h2 : HasScore su v b) : ∃ c, HasScore sc v c ∧ a + b ≤ c := by
  obtain ⟨c, h3, h4⟩ := (C42_dag_longest_paths g h ha w s sc hs).neg.triangle (C42_dag_longest_paths g h ha w u su hu).neg
    (hasScore_neg.2 (by rwa [Int.neg_neg]) : HasScore (negScores sc) u (-a)) (hasScore_neg.2 (by rwa [Int.neg_neg]) : HasScore (negScores su) v (-b))
  exact ⟨-c, hasScore_neg.1 h3, by omega⟩

/-- Example: 1 + 5 ≤ 7 for the vertices 1, 3, 4. -/
example : dagLongestPaths ⟨exWeighted⟩ exWeights 3 10 = .done [(3, ⟨⟨[3]⟩, 0⟩), (2, ⟨⟨[3, 2]⟩, -2⟩), (4, ⟨⟨[3, 4]⟩, 5⟩)] := by decide

end GC
