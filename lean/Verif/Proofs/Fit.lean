/-
How the weights of lightest walks fit together (C141).
-/
import Verif.Spec.Fit
import Verif.Props.ShortestPath
namespace GC
open DirectedGraph ShortestPath LongestPath

variable {g : DirectedGraph} {w : WeightFn} {s u v : VertexId} {sc su : Scores}

/-- Two walks joined. -/
theorem walk_append {l m : List VertexId} (h1 : WalkFromTo g s u l) (h2 : WalkFromTo g u v m) :
    ∃ n, WalkFromTo g s v n ∧ walkWeight w n = walkWeight w l + walkWeight w m := by
  obtain ⟨a, rfl⟩ := List.getLast?_eq_some_iff.1 h1.2.2
  obtain ⟨b, rfl⟩ := List.head?_eq_some_iff.1 h2.2.1
  exact ⟨_, h1.join h2, walkWeight_split w a u b⟩

theorem reports_lightest (h : Built g) (hw : SmallWeights g w) (hr : Reports g w s sc) : LightestWalks g w s sc := by
  rcases hr with hr | hr | ⟨ha, hr⟩
  · exact C43_bellman_ford_exact g h w hw s sc hr
  · exact (C45_spfa_returns_iff g h w hw s).2 sc hr
  · exact C40_dag_shortest_paths g h ha w s sc hr

theorem LightestWalks.entry (h : LightestWalks g w s sc) (hv : Reach g s v) : ∃ sp, (v, sp) ∈ sc := by
  obtain ⟨⟨v', sp⟩, hm, e⟩ := List.mem_map.1 ((h.2.1 v).2 hv)
  simp only at e
  subst e
  exact ⟨sp, hm⟩

/-- The score of `v` is `k` if `k` is the weight of a walk to `v` and no walk to `v` weighs less. -/
theorem LightestWalks.hasScore_iff (h : LightestWalks g w s sc) (k : Int) :
    HasScore sc v k ↔ (∃ l, WalkFromTo g s v l ∧ walkWeight w l = k) ∧ ∀ l, WalkFromTo g s v l → k ≤ walkWeight w l := by
  constructor
  · rintro ⟨sp, hm, rfl⟩
    obtain ⟨h1, h2, h3⟩ := h.2.2 v sp hm
    exact ⟨⟨_, h1, h2.symm⟩, h3⟩
  · rintro ⟨⟨l, hl, rfl⟩, h4⟩
    obtain ⟨sp, hm⟩ := h.entry hl.reach
    obtain ⟨h1, h2, h3⟩ := h.2.2 v sp hm
    refine ⟨sp, hm, ?_⟩
    have := h3 l hl
    have := h4 _ h1
    omega

theorem LightestWalks.score_le (h : LightestWalks g w s sc) {l : List VertexId} (hl : WalkFromTo g s v l) : ∃ k, HasScore sc v k ∧ k ≤ walkWeight w l := by
  obtain ⟨sp, hm⟩ := h.entry hl.reach
  exact ⟨_, ⟨sp, hm, rfl⟩, (h.2.2 v sp hm).2.2 l hl⟩

theorem LightestWalks.closed_nonneg (h : LightestWalks g w s sc) (hv : Reach g s v) {l : List VertexId} (hl : WalkFromTo g v v l) : 0 ≤ walkWeight w l := by
  obtain ⟨sp, hm⟩ := h.entry hv
  obtain ⟨h1, h2, h3⟩ := h.2.2 v sp hm
  obtain ⟨n, hn, e⟩ := walk_append (w := w) h1 hl
  have := h3 n hn
  omega

theorem LightestWalks.score_start (h : LightestWalks g w s sc) : HasScore sc s 0 :=
  (h.hasScore_iff 0).2 ⟨⟨[s], .single s, rfl⟩, fun _ hl => h.closed_nonneg .refl hl⟩

theorem LightestWalks.edge (h : LightestWalks g w s sc) {a : Int} (he : Adj g u v) (ha : HasScore sc u a) : ∃ b, HasScore sc v b ∧ b ≤ a + w ⟨u, v⟩ := by
  obtain ⟨⟨l, hl, rfl⟩, _⟩ := (h.hasScore_iff a).1 ha
  obtain ⟨b, h1, h2⟩ := h.score_le (hl.snoc he)
  rw [walkWeight_snoc hl] at h2
  exact ⟨b, h1, h2⟩

theorem LightestWalks.last_edge (h : LightestWalks g w s sc) {b : Int} (hb : HasScore sc v b) (hne : v ≠ s) :
    ∃ u a, Adj g u v ∧ HasScore sc u a ∧ b = a + w ⟨u, v⟩ := by
  obtain ⟨⟨l, hl, rfl⟩, h2⟩ := (h.hasScore_iff b).1 hb
  rcases hl.snoc_cases with ⟨_, e⟩ | ⟨u, l', rfl, h3, h4⟩
  · exact absurd e.symm hne
  · refine ⟨u, walkWeight w l', h4, (h.hasScore_iff _).2 ⟨⟨l', h3, rfl⟩, fun m hm => ?_⟩, walkWeight_snoc h3 v⟩
    have := h2 _ (hm.snoc h4)
    rw [walkWeight_snoc h3, walkWeight_snoc hm] at this
    omega

theorem LightestWalks.triangle (h : LightestWalks g w s sc) (h' : LightestWalks g w u su) {a b : Int} (ha : HasScore sc u a) (hb : HasScore su v b) :
    ∃ c, HasScore sc v c ∧ c ≤ a + b := by
  obtain ⟨⟨l, hl, rfl⟩, _⟩ := (h.hasScore_iff a).1 ha
  obtain ⟨⟨m, hm, rfl⟩, _⟩ := (h'.hasScore_iff b).1 hb
  obtain ⟨n, hn, e⟩ := walk_append (w := w) hl hm
  rw [← e]
  exact h.score_le hn

theorem LightestWalks.through (h : LightestWalks g w s sc) {sp : ScoredPath} (hm : (v, sp) ∈ sc) {l1 l2 : List VertexId}
    (hl : sp.path.vertices = l1 ++ u :: l2) :
    HasScore sc u (walkWeight w (l1 ++ [u])) ∧ ∀ su, LightestWalks g w u su → HasScore su v (sp.score - walkWeight w (l1 ++ [u])) := by
  obtain ⟨h1, h2, h3⟩ := h.2.2 v sp hm
  rw [hl] at h1 h2
  have h4 := h1.split
  have h5 := walkWeight_split w l1 u l2
  refine ⟨(h.hasScore_iff _).2 ⟨⟨_, h4.1, rfl⟩, fun m hm => ?_⟩, fun su hsu => (hsu.hasScore_iff _).2 ⟨⟨_, h4.2, by omega⟩, fun m hm => ?_⟩⟩
  · obtain ⟨n, hn, e⟩ := walk_append (w := w) hm h4.2
    have := h3 n hn
    omega
  · obtain ⟨n, hn, e⟩ := walk_append (w := w) h4.1 hm
    have := h3 n hn
    omega

/-- The scores negated. -/
def negScores (sc : Scores) : Scores := sc.map fun p => (p.1, ⟨p.2.path, -p.2.score⟩)

theorem HeaviestWalks.neg (h : HeaviestWalks g w s sc) : LightestWalks g (fun e => -w e) s (negScores sc) := by
  obtain ⟨h1, h2, h3⟩ := h
  have hk : (negScores sc).map Prod.fst = sc.map Prod.fst := by
    rw [negScores, List.map_map]; rfl
  refine ⟨by rw [hk]; exact h1, by rw [hk]; exact h2, ?_⟩
  intro v sp hm
  obtain ⟨⟨v', sp'⟩, hp, he⟩ := List.mem_map.1 hm
  cases he
  obtain ⟨a1, a2, a3⟩ := h3 _ sp' hp
  refine ⟨a1, ?_, fun l hl => ?_⟩
  · rw [walkWeight_neg]
    simp only
    omega
  · rw [walkWeight_neg]
    have := a3 l hl
    simp only
    omega

theorem hasScore_neg {k : Int} : HasScore (negScores sc) v k ↔ HasScore sc v (-k) := by
  constructor
  · rintro ⟨sp, hm, rfl⟩
    obtain ⟨⟨v', sp'⟩, hp, he⟩ := List.mem_map.1 hm
    cases he
    exact ⟨sp', hp, by simp⟩
  · rintro ⟨sp, hm, e⟩
    exact ⟨_, List.mem_map.2 ⟨_, hm, rfl⟩, by simp only; omega⟩

end GC
