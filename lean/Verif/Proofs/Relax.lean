/- Invariants shared by the shortest-path algorithms. -/
import Verif.Model.ShortestPath
import Verif.Proofs.Walk
import Verif.Proofs.HMap
import Verif.Proofs.Prog
import Mathlib.Data.List.Perm.Subperm
namespace GC
open DirectedGraph HMap
namespace ShortestPath

variable {g : DirectedGraph} {w : WeightFn} {s u v x : VertexId} {sc sc' : Scores}

/-- Every entry is a walk carrying its weight, and the map holds for every vertex on it something at least as good as the part up
to that vertex. -/
structure Gen (g : DirectedGraph) (w : WeightFn) (s : VertexId) (sc : Scores) : Prop where
  nd : (keys sc).Nodup
  start : ∃ sp, get? sc s = some sp ∧ sp.score ≤ 0
  walk : ∀ v sp, get? sc v = some sp → WalkFromTo g s v sp.path.vertices ∧ sp.score = walkWeight w sp.path.vertices
  pref : ∀ v sp a x b, get? sc v = some sp → sp.path.vertices = a ++ x :: b →
    ∃ sx, get? sc x = some sx ∧ sx.score ≤ walkWeight w (a ++ [x])

/-- `sc'` has at least the entries of `sc`, with scores that are not worse. -/
def Le (sc sc' : Scores) : Prop := ∀ v sp, get? sc v = some sp → ∃ sp', get? sc' v = some sp' ∧ sp'.score ≤ sp.score

theorem Le.refl (sc : Scores) : Le sc sc := fun _ sp h => ⟨sp, h, Int.le_refl _⟩

theorem Le.trans {sc'' : Scores} (h1 : Le sc sc') (h2 : Le sc' sc'') : Le sc sc'' := by
  intro v sp h
  obtain ⟨sp', a, b⟩ := h1 v sp h
  obtain ⟨sp'', c, d⟩ := h2 v sp' a
  exact ⟨sp'', c, Int.le_trans d b⟩

/-- All paths in the map are simple. -/
def Simple (sc : Scores) : Prop := ∀ v sp, get? sc v = some sp → sp.path.vertices.Nodup

/-- No score exceeds `(number of entries - 1) · M`. -/
def Upper (M : Int) (sc : Scores) : Prop := ∀ v sp, get? sc v = some sp → sp.score ≤ ((keys sc).length - 1 : Int) * M

theorem get?_initial (s x : VertexId) : get? (initialScores s) x = if x = s then some ⟨⟨[s]⟩, 0⟩ else none := by
  unfold initialScores
  rw [get?_insert]; rfl

theorem Gen.initial : Gen g w s (initialScores s) := by
  refine ⟨by simp [initialScores, HMap.insert, keys], ⟨⟨⟨[s]⟩, 0⟩, by simp [get?_initial], Int.le_refl _⟩, ?_, ?_⟩
  · intro v sp h
    rw [get?_initial] at h
    split at h
    · rename_i e
      subst e
      cases h
      exact ⟨.single _, rfl⟩
    · cases h
  · intro v sp a x b h hp
    rw [get?_initial] at h
    split at h
    · cases h
      rcases a with _ | ⟨c, a⟩
      · simp only [List.nil_append, List.cons.injEq] at hp
        obtain ⟨rfl, rfl⟩ := hp
        exact ⟨⟨⟨[s]⟩, 0⟩, by simp [get?_initial], by simp [walkWeight]⟩
      · have := congrArg List.length hp
        simp at this
    · cases h

theorem Simple.initial : Simple (initialScores s) := by
  intro v sp h
  rw [get?_initial] at h
  split at h
  · cases h; simp
  · cases h

theorem Upper.initial (M : Int) : Upper M (initialScores s) := by
  intro v sp h
  rw [get?_initial] at h
  split at h
  · cases h; simp [initialScores, HMap.insert, keys]
  · cases h

/-- The new entry of a relaxation. -/
abbrev newEntry (w : WeightFn) (sp : ScoredPath) (e : Edge) : ScoredPath := ⟨sp.path.append e.dst, sp.score + w e⟩

section insert
variable {e : Edge} {sp : ScoredPath} (hg : Gen g w s sc) (hu : get? sc e.src = some sp)
  (hlt : ∀ cur, get? sc e.dst = some cur → sp.score + w e < cur.score)

include hlt in
theorem Le.insert : Le sc (HMap.insert sc e.dst (newEntry w sp e)) := by
  intro x q h
  rw [get?_insert]
  split
  · rename_i hx
    subst hx
    exact ⟨_, rfl, Int.le_of_lt (hlt q h)⟩
  · exact ⟨q, h, Int.le_refl _⟩

include hg hu hlt in
theorem Gen.insert (he : g.containsEdge e = true) : Gen g w s (HMap.insert sc e.dst (newEntry w sp e)) := by
  have hle := Le.insert (w := w) hlt
  obtain ⟨h1, h2⟩ := hg.walk _ _ hu
  have hwalk : WalkFromTo g s e.dst (sp.path.append e.dst).vertices := h1.snoc he
  have hwt : sp.score + w e = walkWeight w (sp.path.append e.dst).vertices := by
    simp only [Path.append]; rw [walkWeight_snoc h1, h2]
  refine ⟨nodup_keys_insert hg.nd _ _, ?_, ?_, ?_⟩
  · obtain ⟨q, hq, hq0⟩ := hg.start
    obtain ⟨q', h3, h4⟩ := hle _ _ hq
    exact ⟨q', h3, Int.le_trans h4 hq0⟩
  · intro x q h
    rw [get?_insert] at h
    split at h
    · rename_i hx
      subst hx
      cases h
      exact ⟨hwalk, hwt⟩
    · exact hg.walk x q h
  · intro y q a x b h hp
    rw [get?_insert] at h
    split at h
    · rename_i hy
      subst hy
      cases h
      simp only [Path.append] at hp
      rcases List.eq_nil_or_concat b with hb | ⟨b', z, hb⟩
      · subst hb
        have := List.append_inj' hp rfl
        simp only [List.cons.injEq, and_true] at this
        obtain ⟨rfl, rfl⟩ := this
        exact ⟨_, by rw [get?_insert, if_pos rfl], Int.le_of_eq hwt⟩
      · rw [List.concat_eq_append] at hb
        subst hb
        have hp' : sp.path.vertices ++ [e.dst] = (a ++ x :: b') ++ [z] := hp.trans (by simp)
        have := List.append_inj' hp' rfl
        obtain ⟨sx, h3, h4⟩ := hg.pref _ _ a x b' hu this.1
        obtain ⟨sx', h5, h6⟩ := hle _ _ h3
        exact ⟨sx', h5, Int.le_trans h6 h4⟩
    · obtain ⟨sx, h3, h4⟩ := hg.pref _ _ a x b h hp
      obtain ⟨sx', h5, h6⟩ := hle _ _ h3
      exact ⟨sx', h5, Int.le_trans h6 h4⟩

include hg hu hlt in
theorem Simple.insert (hn : ¬ NegativeCycle g w s) (he : g.containsEdge e = true) (hs : Simple sc) :
    Simple (HMap.insert sc e.dst (newEntry w sp e)) := by
  intro x q h
  rw [get?_insert] at h
  split at h
  · rename_i hx
    subst hx
    cases h
    simp only [Path.append]
    rw [List.nodup_append]
    refine ⟨hs _ _ hu, by simp, ?_⟩
    intro a ha b hb hab
    rw [List.mem_singleton] at hb
    subst hb; subst hab
    obtain ⟨p, r, hpr⟩ := List.append_of_mem ha
    obtain ⟨sx, h3, h4⟩ := hg.pref _ _ _ _ _ hu hpr
    have h5 := hlt _ h3
    obtain ⟨h1, h2⟩ := hg.walk _ _ hu
    rw [hpr] at h1
    have hc := h1.split.2.snoc (v := e.dst) he
    apply hn
    refine ⟨e.dst, _, h1.split.1.reach, hc, ?_⟩
    rw [walkWeight_snoc h1.split.2]
    rw [h2, hpr, walkWeight_split] at h5
    have e' : (⟨e.src, e.dst⟩ : Edge) = e := rfl
    rw [e']
    omega
  · exact hs x q h

include hu in
theorem Upper.insert {M : Int} (hlt : ∀ cur, get? sc e.dst = some cur → sp.score + w e < cur.score) (hM : w e ≤ M) (hM0 : 0 ≤ M)
    (hU : Upper M sc) : Upper M (HMap.insert sc e.dst (newEntry w sp e)) := by
  have hk : ((keys sc).length : Int) ≤ (keys (HMap.insert sc e.dst (newEntry w sp e))).length := by
    rw [keys_insert]; split
    · exact Int.le_refl _
    · simp
  intro x q h
  rw [get?_insert] at h
  split at h
  · rename_i hx
    subst hx
    cases h
    cases hc : get? sc e.dst with
    | some cur =>
      have h1 := hlt cur hc
      have h2 := hU _ _ hc
      simp only
      nlinarith
    | none =>
      have h2 := hU _ _ hu
      rw [keys_insert, if_neg (get?_eq_none_iff.1 hc)]
      simp only [List.length_append, List.length_singleton]
      push_cast
      nlinarith
  · have h2 := hU _ _ h
    nlinarith

end insert

/-- The keys are reachable from the start. -/
theorem Gen.key_reach (hg : Gen g w s sc) {sp : ScoredPath} (h : get? sc v = some sp) : Reach g s v := (hg.walk _ _ h).1.reach

/-- If some entry has an outgoing edge, there are at most as many entries as vertices. -/
theorem Gen.keys_length (hw : WF g) (hg : Gen g w s sc) {e : Edge} {sp : ScoredPath} (hu : get? sc e.src = some sp)
    (he : g.containsEdge e = true) : (keys sc).length ≤ g.vertexCount := by
  have hv : g.vertices.length = g.vertexCount := by simp [vertexCount, vertices, HMap.keys]
  rw [← hv]
  refine (hg.nd.subperm fun y hy => ?_).length_le
  rw [← get?_isSome_iff, Option.isSome_iff_exists] at hy
  obtain ⟨q, hq⟩ := hy
  exact mem_vertices.2 (reach_vertex hw (hg.key_reach hu) he (hg.key_reach hq))

theorem Gen.path_length (hw : WF g) (hg : Gen g w s sc) (hs : Simple sc) {e : Edge} {sp : ScoredPath} (hu : get? sc e.src = some sp)
    (he : g.containsEdge e = true) : sp.path.vertices.length ≤ g.vertexCount := by
  have hv : g.vertices.length = g.vertexCount := by simp [vertexCount, vertices, HMap.keys]
  rw [← hv]
  refine ((hs _ _ hu).subperm fun y hy => ?_).length_le
  exact mem_vertices.2 (reach_vertex hw (hg.key_reach hu) he ((hg.walk _ _ hu).1.mem_reach hy))

/-- All edges out of `u` have been used. -/
def Rel (g : DirectedGraph) (w : WeightFn) (sc : Scores) (u : VertexId) : Prop :=
  ∀ sp v, get? sc u = some sp → Adj g u v → ∃ sv, get? sc v = some sv ∧ sv.score ≤ sp.score + w ⟨u, v⟩

/-- A map all of whose edges have been used is the map of lightest walks. -/
theorem Gen.lightest (hg : Gen g w s sc) (hc : ∀ u, Rel g w sc u) : LightestWalks g w s sc ∧ ¬ NegativeCycle g w s := by
  have key : ∀ l v, WalkFromTo g s v l → ∃ sp, get? sc v = some sp ∧ sp.score ≤ walkWeight w l := by
    intro l
    induction l using List.reverseRecOn with
    | nil => intro v h; exact absurd rfl h.ne_nil
    | append_singleton l z ih =>
      intro v h
      rcases h.snoc_cases with ⟨h1, rfl⟩ | ⟨u, l', h1, h2, h3⟩
      · rw [h1]
        exact hg.start
      · have := List.append_inj' h1 rfl
        obtain ⟨rfl, hz⟩ := this
        simp only [List.cons.injEq, and_true] at hz
        subst hz
        obtain ⟨sp, h4, h5⟩ := ih u h2
        obtain ⟨sv, h6, h7⟩ := hc u sp z h4 h3
        exact ⟨sv, h6, by rw [walkWeight_snoc h2]; omega⟩
  constructor
  · refine ⟨hg.nd, ?_, ?_⟩
    · intro v
      constructor
      · intro h
        have := get?_isSome_iff.2 h
        rw [Option.isSome_iff_exists] at this
        obtain ⟨sp, hsp⟩ := this
        exact hg.key_reach hsp
      · intro h
        obtain ⟨l, hl⟩ := Reach.walk h
        obtain ⟨sp, h1, _⟩ := key l v hl
        exact get?_isSome_iff.1 (by rw [h1]; rfl)
    · intro v sp h
      have h1 := (get?_eq_some_iff hg.nd).2 h
      obtain ⟨h2, h3⟩ := hg.walk v sp h1
      refine ⟨h2, h3, fun l hl => ?_⟩
      obtain ⟨sp', h4, h5⟩ := key l v hl
      rw [h1] at h4
      cases h4
      exact h5
  · rintro ⟨v, c, h1, h2, h3⟩
    obtain ⟨l, hl⟩ := Reach.walk h1
    obtain ⟨sp, h4, _⟩ := key l v hl
    obtain ⟨h5, h6⟩ := hg.walk v sp h4
    -- the entry for `v` followed by the cycle
    rcases c with _ | ⟨y, c⟩
    · cases h2.2.1
    · have hy : y = v := by have := h2.2.1; simpa using this
      subst hy
      rcases List.eq_nil_or_concat sp.path.vertices with hb | ⟨p, z, hb⟩
      · exact absurd hb h5.ne_nil
      · rw [List.concat_eq_append] at hb
        have hz : z = y := by have := h5.2.2; rw [hb] at this; simpa using this
        subst hz
        rw [hb] at h5
        obtain ⟨sp', h7, h8⟩ := key _ _ (h5.join h2)
        rw [h4] at h7
        cases h7
        rw [walkWeight_split, ← hb, ← h6] at h8
        omega

/-- The bound on the weights as a single number. -/
theorem SmallWeights.bound (h : SmallWeights g w) : ∃ M : Int, 0 ≤ M ∧ (∀ e, g.containsEdge e = true → |w e| ≤ M) ∧
    M * g.vertexCount < 2 ^ 63 - 1 := by
  by_cases h0 : g.vertexCount = 0
  · refine ⟨0, Int.le_refl _, ?_, by norm_num⟩
    intro e he
    exfalso
    have : g.containsVertex e.src = true := by
      unfold containsEdge at he
      by_contra c
      simp [c] at he
    have := mem_vertices.2 this
    have hv : g.vertices.length = g.vertexCount := by simp [vertexCount, vertices, HMap.keys]
    rw [h0, List.length_eq_zero_iff] at hv
    rw [hv] at this
    simp at this
  · have hp : (0 : Int) < g.vertexCount := by omega
    refine ⟨(2 ^ 63 - 2) / g.vertexCount, Int.ediv_nonneg (by norm_num) (by omega), ?_, ?_⟩
    · intro e he
      rw [Int.le_ediv_iff_mul_le hp]
      have := h e he
      omega
    · have := Int.ediv_mul_le (2 ^ 63 - 2) (Int.ne_of_gt hp)
      omega

theorem addI64_eq {a b c : Int} (h : addI64 a b = .done c) : c = a + b := by
  unfold addI64 at h
  split at h
  · exact (Run.done.inj h).symm
  · cases h

theorem addI64_done {a b : Int} (h1 : -2 ^ 63 ≤ a + b) (h2 : a + b < 2 ^ 63) : addI64 a b = .done (a + b) := if_pos ⟨h1, h2⟩

/-- A sum of a simple entry and an edge does not overflow. -/
theorem Gen.sum_small (hw : WF g) (hg : Gen g w s sc) (hs : Simple sc) {M : Int} (hM0 : 0 ≤ M)
    (hM : ∀ e, g.containsEdge e = true → |w e| ≤ M) (hV : M * g.vertexCount < 2 ^ 63 - 1) {e : Edge} {sp : ScoredPath}
    (hu : get? sc e.src = some sp) (he : g.containsEdge e = true) : |sp.score + w e| < 2 ^ 63 - 1 := by
  have h1 := hg.path_length hw hs hu he
  obtain ⟨h2, h3⟩ := hg.walk _ _ hu
  have h4 := walkWeight_abs hM h2.1 h2.ne_nil
  have h5 := hM e he
  rw [← h3] at h4
  have h6 := abs_add_le sp.score (w e)
  have h7 : (sp.path.vertices.length : Int) ≤ g.vertexCount := by exact_mod_cast h1
  nlinarith

theorem Gen.sum_upper (hw : WF g) (hg : Gen g w s sc) {M : Int} (hU : Upper M sc) (hM0 : 0 ≤ M)
    (hM : ∀ e, g.containsEdge e = true → |w e| ≤ M) (hV : M * g.vertexCount < 2 ^ 63 - 1) {e : Edge} {sp : ScoredPath}
    (hu : get? sc e.src = some sp) (he : g.containsEdge e = true) : sp.score + w e < 2 ^ 63 - 1 := by
  have h1 := hg.keys_length hw hu he
  have h2 := hU _ _ hu
  have h5 := (abs_le.1 (hM e he)).2
  have h7 : ((keys sc).length : Int) ≤ g.vertexCount := by exact_mod_cast h1
  nlinarith

end ShortestPath
end GC
