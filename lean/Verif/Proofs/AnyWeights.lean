/- Bellman-Ford and SPFA for weights of any size. -/
import Verif.Spec.AnyWeights
import Verif.Proofs.BellmanFord
namespace GC
open DirectedGraph HMap

section belowMax
variable {w : Edge → Int} {l : List VertexId}

theorem BelowMax.left {a b : List VertexId} (h : BelowMax w (a ++ b)) : BelowMax w a := by
  intro c d e
  exact h c (d ++ b) (by rw [e, List.append_assoc])

theorem BelowMax.self (h : BelowMax w l) : walkWeight w l < 2 ^ 63 - 1 := h l [] (by simp)

theorem BelowMax.single (x : VertexId) : BelowMax w [x] := by
  intro a b e
  rcases a with _ | ⟨y, _ | ⟨z, a⟩⟩
  · simp [walkWeight]
  · simp [walkWeight]
  · have := congrArg List.length e; simp at this

theorem BelowMax.snoc {z : VertexId} (h : BelowMax w l) (h2 : walkWeight w (l ++ [z]) < 2 ^ 63 - 1) : BelowMax w (l ++ [z]) := by
  intro a b e
  rcases List.eq_nil_or_concat b with hb | ⟨b', y, hb⟩
  · subst hb
    rw [List.append_nil] at e
    rw [← e]; exact h2
  · rw [List.concat_eq_append] at hb
    subst hb
    rw [← List.append_assoc] at e
    exact h a b' (List.append_inj' e rfl).1

/-- A walk may be replaced by a lighter one up to one of its vertices. -/
theorem BelowMax.replace {a a' b : List VertexId} {x : VertexId} (h : BelowMax w (a ++ x :: b)) (h' : BelowMax w (a' ++ [x]))
    (hle : walkWeight w (a' ++ [x]) ≤ walkWeight w (a ++ [x])) : BelowMax w (a' ++ x :: b) := by
  intro c d e
  have e' : (a' ++ [x]) ++ b = c ++ d := by simpa using e
  rcases List.append_eq_append_iff.1 e' with ⟨q, h1, h2⟩ | ⟨q, h1, h2⟩
  · have h3 := h (a ++ x :: q) d (by rw [h2]; simp)
    rw [h1]
    have e1 : a' ++ [x] ++ q = a' ++ x :: q := by simp
    rw [e1, walkWeight_split]
    rw [walkWeight_split] at h3
    omega
  · exact h' c q h1

end belowMax

namespace ShortestPath

variable {g : DirectedGraph} {w : WeightFn} {s u v x : VertexId} {sc sc' : Scores}

/-- What the algorithms keep true for all weights. -/
structure AnyInv (g : DirectedGraph) (w : WeightFn) (s : VertexId) (sc : Scores) : Prop extends Gen g w s sc where
  below : ∀ v sp, get? sc v = some sp → BelowMax w sp.path.vertices

theorem AnyInv.initial : AnyInv g w s (initialScores s) := by
  refine ⟨Gen.initial, ?_⟩
  intro v sp h
  rw [get?_initial] at h
  split at h
  · cases h; exact .single _
  · cases h

theorem current_le (hi : AnyInv g w s sc) (v : VertexId) : currentScoreOfVertex sc v ≤ 2 ^ 63 - 1 := by
  cases h : get? sc v with
  | none => simp [currentScoreOfVertex, h, i64Max]
  | some sp =>
    rw [current_some h, (hi.walk _ _ h).2]
    exact Int.le_of_lt (hi.below _ _ h).self

/-- A walk that improves an entry is simple, unless there is a negative cycle. -/
theorem AnyInv.simple_step (hi : AnyInv g w s sc) (hn : ¬ NegativeCycleBelowMax g w s) {e : Edge} (he : g.containsEdge e = true)
    {sp : ScoredPath} (hu : get? sc e.src = some sp) (hlt : ∀ cur, get? sc e.dst = some cur → sp.score + w e < cur.score)
    (hb : BelowMax w (sp.path.vertices ++ [e.dst])) (hs : sp.path.vertices.Nodup) : (sp.path.vertices ++ [e.dst]).Nodup := by
  rw [List.nodup_append]
  refine ⟨hs, by simp, ?_⟩
  intro a ha b hb' hab
  rw [List.mem_singleton] at hb'
  subst hb'; subst hab
  obtain ⟨p, r, hpr⟩ := List.append_of_mem ha
  obtain ⟨sx, h3, h4⟩ := hi.pref _ _ _ _ _ hu hpr
  have h5 := hlt _ h3
  obtain ⟨h1, h2⟩ := hi.walk _ _ hu
  rw [hpr] at h1 hb
  have hc := h1.split.2.snoc (v := e.dst) he
  apply hn
  refine ⟨e.dst, p, r ++ [e.dst], h1.split.1, hc, ?_, by simpa using hb⟩
  have e1 : e.dst :: (r ++ [e.dst]) = (e.dst :: r) ++ [e.dst] := rfl
  rw [e1, walkWeight_snoc h1.split.2]
  rw [h2, hpr, walkWeight_split] at h5
  have e' : (⟨e.src, e.dst⟩ : Edge) = e := rfl
  rw [e']
  omega

/-- The effect of a relaxation. -/
theorem AnyInv.relax (hi : AnyInv g w s sc) {e : Edge} (he : g.containsEdge e = true)
    {r : Option ScoredPath} (h : improvement w sc e = .done r) :
    AnyInv g w s (applied sc e r) ∧ Le sc (applied sc e r) ∧
      (¬ NegativeCycleBelowMax g w s → Simple sc → Simple (applied sc e r)) ∧
      (∀ sp, get? sc e.src = some sp → sp.score + w e < 2 ^ 63 - 1 →
        ∃ sv, get? (applied sc e r) e.dst = some sv ∧ sv.score ≤ sp.score + w e) ∧
      (∀ y, y ≠ e.dst → get? (applied sc e r) y = get? sc y) := by
  rcases improvement_cases h with ⟨rfl, hnone⟩ | ⟨sp, hsp, rfl, hlt⟩
  · refine ⟨hi, Le.refl _, fun _ h => h, ?_, fun _ _ => rfl⟩
    intro sp hsp h2
    have h1 := hnone sp hsp
    cases hd : get? sc e.dst with
    | none =>
      simp only [currentScoreOfVertex, hd, Option.map_none, Option.getD_none, i64Max] at h1
      omega
    | some sv =>
      rw [current_some hd] at h1
      exact ⟨sv, hd, h1⟩
  · have hlt' : ∀ cur, get? sc e.dst = some cur → sp.score + w e < cur.score := by
      intro cur hc
      rw [current_some hc] at hlt
      exact hlt
    obtain ⟨c1, c2⟩ := hi.walk _ _ hsp
    have hb : BelowMax w (sp.path.vertices ++ [e.dst]) := by
      refine (hi.below _ _ hsp).snoc ?_
      rw [walkWeight_snoc c1, ← c2]
      exact Int.lt_of_lt_of_le hlt (current_le hi _)
    refine ⟨⟨hi.toGen.insert hsp hlt' he, ?_⟩, Le.insert hlt', ?_, ?_, ?_⟩
    · intro y q hq
      simp only [applied] at hq
      rw [get?_insert] at hq
      split at hq
      · cases hq; exact hb
      · exact hi.below _ _ hq
    · intro hn hs y q hq
      simp only [applied] at hq
      rw [get?_insert] at hq
      split at hq
      · cases hq; exact hi.simple_step hn he hsp hlt' hb (hs _ _ hsp)
      · exact hs _ _ hq
    · intro sp' hsp' _
      rw [hsp] at hsp'
      cases hsp'
      exact ⟨_, by simp only [applied]; rw [get?_insert, if_pos rfl], Int.le_refl _⟩
    · intro y hy
      simp only [applied]
      rw [get?_insert, if_neg hy]

/-- A relaxation panics only if a walk overflows. -/
theorem AnyInv.panics (hi : AnyInv g w s sc) {e : Edge} (he : g.containsEdge e = true) (h : improvement w sc e = .panicked) :
    OverflowingWalk g w s := by
  by_contra hn
  have := improvement_done (w := w) (sc := sc) (e := e) (by
    intro sp hsp
    obtain ⟨c1, c2⟩ := hi.walk _ _ hsp
    by_contra hc
    refine hn ⟨e.dst, _, c1.snoc he, ?_⟩
    have e' : (⟨e.src, e.dst⟩ : Edge) = e := rfl
    rw [walkWeight_snoc c1, ← c2, e']
    omega)
  obtain ⟨r, hr⟩ := this
  rw [hr] at h
  cases h

/-- The edges out of `u` have been used as far as the sums are below `i64::MAX`. -/
def RelBelow (g : DirectedGraph) (w : WeightFn) (sc : Scores) (u : VertexId) : Prop :=
  ∀ sp v, get? sc u = some sp → Adj g u v → sp.score + w ⟨u, v⟩ < 2 ^ 63 - 1 →
    ∃ sv, get? sc v = some sv ∧ sv.score ≤ sp.score + w ⟨u, v⟩

theorem AnyInv.lightest (hg : AnyInv g w s sc) (hc : ∀ u, RelBelow g w sc u) :
    LightestBelowMax g w s sc ∧ ¬ NegativeCycleBelowMax g w s := by
  have key : ∀ l v, WalkFromTo g s v l → BelowMax w l → ∃ sp, get? sc v = some sp ∧ sp.score ≤ walkWeight w l := by
    intro l
    induction l using List.reverseRecOn with
    | nil => intro v h; exact absurd rfl h.ne_nil
    | append_singleton l z ih =>
      intro v h hb
      rcases h.snoc_cases with ⟨h1, rfl⟩ | ⟨u, l', h1, h2, h3⟩
      · rw [h1]
        exact hg.start
      · have := List.append_inj' h1 rfl
        obtain ⟨rfl, hz⟩ := this
        simp only [List.cons.injEq, and_true] at hz
        subst hz
        obtain ⟨sp, h4, h5⟩ := ih u h2 hb.left
        have h8 := hb.self
        rw [walkWeight_snoc h2] at h8
        obtain ⟨sv, h6, h7⟩ := hc u sp z h4 h3 (by omega)
        exact ⟨sv, h6, by rw [walkWeight_snoc h2]; omega⟩
  constructor
  · refine ⟨hg.nd, ?_, ?_⟩
    · intro v
      constructor
      · intro h
        have := get?_isSome_iff.2 h
        rw [Option.isSome_iff_exists] at this
        obtain ⟨sp, hsp⟩ := this
        exact ⟨_, (hg.walk _ _ hsp).1, hg.below _ _ hsp⟩
      · rintro ⟨l, hl, hb⟩
        obtain ⟨sp, h1, _⟩ := key l v hl hb
        exact get?_isSome_iff.1 (by rw [h1]; rfl)
    · intro v sp h
      have h1 := (get?_eq_some_iff hg.nd).2 h
      obtain ⟨h2, h3⟩ := hg.walk v sp h1
      refine ⟨h2, h3, hg.below _ _ h1, fun l hl hb => ?_⟩
      obtain ⟨sp', h4, h5⟩ := key l v hl hb
      rw [h1] at h4
      cases h4
      exact h5
  · rintro ⟨v, a, c, h1, h2, h3, hb⟩
    have hb1 : BelowMax w (a ++ [v]) := BelowMax.left (b := c) (by simpa using hb)
    obtain ⟨sp, h4, hle⟩ := key _ v h1 hb1
    obtain ⟨h5, h6⟩ := hg.walk v sp h4
    have hb2 := hg.below _ _ h4
    rcases List.eq_nil_or_concat sp.path.vertices with hb' | ⟨p, z, hb'⟩
    · exact absurd hb' h5.ne_nil
    · rw [List.concat_eq_append] at hb'
      have hz : z = v := by have := h5.2.2; rw [hb'] at this; simpa using this
      subst hz
      rw [hb'] at h5 hb2
      rw [h6, hb'] at hle
      obtain ⟨sp', h7, h8⟩ := key _ _ (h5.join h2) (hb.replace hb2 hle)
      rw [h4] at h7
      cases h7
      rw [walkWeight_split, ← hb', ← h6] at h8
      omega

theorem any_edges (es : List Edge) (hes : ∀ e ∈ es, g.containsEdge e = true) (hi : AnyInv g w s sc)
    (h : Run.forEach (bfRelax w) sc es = .done sc') :
    AnyInv g w s sc' ∧ Le sc sc' ∧ (¬ NegativeCycleBelowMax g w s → Simple sc → Simple sc') ∧
      (∀ e ∈ es, ∀ sp, get? sc e.src = some sp → sp.score + w e < 2 ^ 63 - 1 →
        ∃ sv, get? sc' e.dst = some sv ∧ sv.score ≤ sp.score + w e) := by
  induction es generalizing sc with
  | nil =>
    cases h
    exact ⟨hi, Le.refl _, fun _ h => h, by simp⟩
  | cons e es ih =>
    rw [Run.forEach, Run.bind_eq_done] at h
    obtain ⟨sc1, h1, h2⟩ := h
    rw [bfRelax_eq, Run.bind_eq_done] at h1
    obtain ⟨r, h1, h3⟩ := h1
    cases h3
    have he := hes e (by simp)
    obtain ⟨i1, l1, s1, r1, _⟩ := hi.relax he h1
    obtain ⟨i2, l2, s2, r2⟩ := ih (fun e he => hes e (by simp [he])) i1 h2
    refine ⟨i2, l1.trans l2, fun hn hs => s2 hn (s1 hn hs), ?_⟩
    intro e' he' sp hsp hlt
    rcases List.mem_cons.1 he' with rfl | he'
    · obtain ⟨sv, h5, h6⟩ := r1 sp hsp hlt
      obtain ⟨sv', h7, h8⟩ := l2 _ _ h5
      exact ⟨sv', h7, Int.le_trans h8 h6⟩
    · obtain ⟨sp', h5, h6⟩ := l1 _ _ hsp
      obtain ⟨sv, h7, h8⟩ := r2 e' he' sp' h5 (by omega)
      exact ⟨sv, h7, by omega⟩

/-- Short walks below `i64::MAX` have been taken into account. -/
def CoversBelow (g : DirectedGraph) (w : WeightFn) (s : VertexId) (k : Nat) (sc : Scores) : Prop :=
  ∀ v l, WalkFromTo g s v l → BelowMax w l → l.length ≤ k + 1 → ∃ sp, get? sc v = some sp ∧ sp.score ≤ walkWeight w l

theorem any_rounds (hw : WF g) (is : List Nat) (k : Nat) (hi : AnyInv g w s sc) (hc : CoversBelow g w s k sc)
    (h : Run.forEach (bfRound g w) sc is = .done sc') :
    AnyInv g w s sc' ∧ (¬ NegativeCycleBelowMax g w s → Simple sc → Simple sc') ∧ CoversBelow g w s (k + is.length) sc' := by
  induction is generalizing sc k with
  | nil =>
    cases h
    exact ⟨hi, fun _ h => h, hc⟩
  | cons i is ih =>
    rw [Run.forEach, Run.bind_eq_done] at h
    obtain ⟨sc1, h1, h2⟩ := h
    obtain ⟨i1, l1, s1, r1⟩ := any_edges g.edges (fun e he => hw.mem_edges.1 he) hi h1
    have hc1 : CoversBelow g w s (k + 1) sc1 := by
      intro v l hl hb hlen
      rcases hl.snoc_cases with ⟨rfl, rfl⟩ | ⟨u, l', rfl, h3, h4⟩
      · obtain ⟨sp, h5, h6⟩ := hc s [s] (.single s) hb (by simp)
        obtain ⟨sp', h7, h8⟩ := l1 _ _ h5
        exact ⟨sp', h7, by omega⟩
      · obtain ⟨sp, h5, h6⟩ := hc u l' h3 hb.left (by simp at hlen; omega)
        have h9 := hb.self
        rw [walkWeight_snoc h3] at h9
        obtain ⟨sv, h7, h8⟩ := r1 ⟨u, v⟩ (hw.mem_edges.2 h4) sp h5 (by omega)
        exact ⟨sv, h7, by rw [walkWeight_snoc h3]; omega⟩
    obtain ⟨i2, s2, c2⟩ := ih (k + 1) i1 hc1 h2
    refine ⟨i2, fun hn hs => s2 hn (s1 hn hs), ?_⟩
    have e : k + (i :: is).length = k + 1 + is.length := by simp only [List.length_cons]; omega
    rw [e]
    exact c2

theorem CoversBelow.initial : CoversBelow g w s 0 (initialScores s) := by
  intro v l hl _ hlen
  exact Covers.initial (g := g) v l hl hlen

theorem bellmanFord_any (hw : WF g) {r : Option Scores} (h : bellmanFord g w s = .done r) :
    (∀ sc, r = some sc → LightestBelowMax g w s sc ∧ ¬ NegativeCycleBelowMax g w s) ∧ (r = none → NegativeCycleBelowMax g w s) := by
  unfold bellmanFord at h
  rw [Run.bind_eq_done] at h
  obtain ⟨sc, h1, h⟩ := h
  rw [Run.bind_eq_done] at h
  obtain ⟨b, h2, h⟩ := h
  obtain ⟨hi, hs, hc⟩ := any_rounds hw _ 0 AnyInv.initial CoversBelow.initial h1
  cases b with
  | false =>
    cases h
    refine ⟨?_, by simp⟩
    rintro sc' ⟨⟩
    have h3 := bfImprovable_false _ h2
    refine hi.lightest fun u sp v hsp huv hlt => ?_
    obtain ⟨_, _, _, h4, _⟩ := hi.relax (e := ⟨u, v⟩) huv (h3 _ (hw.mem_edges.2 huv))
    exact h4 sp hsp hlt
  | true =>
    cases h
    refine ⟨by simp, fun _ => ?_⟩
    by_contra hn
    obtain ⟨e, he, q, h3⟩ := bfImprovable_true _ h2
    have he' := hw.mem_edges.1 he
    rcases improvement_cases h3 with ⟨c, _⟩ | ⟨sp, hsp, _, hlt⟩
    · cases c
    · have hsimple := hs hn Simple.initial
      obtain ⟨c1, c2⟩ := hi.walk _ _ hsp
      have hlt' : ∀ cur, get? sc e.dst = some cur → sp.score + w e < cur.score := by
        intro cur hcur
        rw [current_some hcur] at hlt
        exact hlt
      have e' : (⟨e.src, e.dst⟩ : Edge) = e := rfl
      have hb : BelowMax w (sp.path.vertices ++ [e.dst]) := by
        refine (hi.below _ _ hsp).snoc ?_
        rw [walkWeight_snoc c1, ← c2, e']
        exact Int.lt_of_lt_of_le hlt (current_le hi _)
      have hsn := hi.simple_step hn he' hsp hlt' hb (hsimple _ _ hsp)
      have hwk := c1.snoc (v := e.dst) he'
      have hlen2 : (sp.path.vertices ++ [e.dst]).length ≤ g.vertices.length := by
        refine (hsn.subperm fun y hy => ?_).length_le
        exact mem_vertices.2 (reach_vertex hw (hi.toGen.key_reach hsp) he' (hwk.mem_reach hy))
      have hv : g.vertices.length = g.vertexCount := by simp [vertexCount, vertices, HMap.keys]
      obtain ⟨cur, c3, c4⟩ := hc e.dst _ hwk hb (by
        simp only [List.length_range']
        omega)
      have := hlt' cur c3
      rw [walkWeight_snoc c1, ← c2, e'] at c4
      omega

theorem forEach_panicked {σ α : Type} {body : σ → α → Run σ} (I : σ → Prop) (l : List α)
    (hstep : ∀ s s', I s → ∀ a ∈ l, body s a = .done s' → I s') (s : σ) (hs : I s) (h : Run.forEach body s l = .panicked) :
    ∃ s' a, I s' ∧ a ∈ l ∧ body s' a = .panicked := by
  induction l generalizing s with
  | nil => cases h
  | cons a l ih =>
    rw [Run.forEach] at h
    cases hb : body s a with
    | running => rw [hb] at h; cases h
    | panicked => exact ⟨s, a, hs, by simp, hb⟩
    | done s1 =>
      rw [hb, Run.bind_done] at h
      obtain ⟨s', a', h1, h2, h3⟩ := ih (fun s s' hs a ha => hstep s s' hs a (by simp [ha])) s1 (hstep s s1 hs a (by simp) hb) h
      exact ⟨s', a', h1, by simp [h2], h3⟩

theorem bfRelax_panicked {e : Edge} (h : bfRelax w sc e = .panicked) : improvement w sc e = .panicked := by
  rw [bfRelax_eq] at h
  cases hi : improvement w sc e with
  | running => rw [hi] at h; cases h
  | panicked => rfl
  | done r => rw [hi] at h; cases h

theorem bfImprovable_panicked (es : List Edge) (h : bfImprovable w sc es = .panicked) :
    ∃ e ∈ es, improvement w sc e = .panicked := by
  induction es with
  | nil => cases h
  | cons e es ih =>
    rw [bfImprovable] at h
    cases hi : improvement w sc e with
    | running => rw [hi] at h; cases h
    | panicked => exact ⟨e, by simp, hi⟩
    | done r =>
      rw [hi, Run.bind_done] at h
      split at h
      · cases h
      · obtain ⟨e', h1, h2⟩ := ih h
        exact ⟨e', by simp [h1], h2⟩

theorem any_edges_panicked (es : List Edge) (hes : ∀ e ∈ es, g.containsEdge e = true) (hi : AnyInv g w s sc)
    (h : Run.forEach (bfRelax w) sc es = .panicked) : OverflowingWalk g w s := by
  obtain ⟨sc1, e, h1, h2, h3⟩ := forEach_panicked (AnyInv g w s) es (by
    intro a a' ha e he hb
    rw [bfRelax_eq, Run.bind_eq_done] at hb
    obtain ⟨r, h1, h3⟩ := hb
    cases h3
    exact (ha.relax (hes e he) h1).1) sc hi h
  exact h1.panics (hes e h2) (bfRelax_panicked h3)

theorem bfRound_not_running (sc : Scores) (i : Nat) : bfRound g w sc i ≠ .running := by
  refine forEach_not_running (fun sc e => ?_) _ _
  rw [bfRelax_eq]
  cases h : improvement w sc e with
  | running => exact absurd h (improvement_not_running _ _)
  | panicked => simp
  | done r => simp

theorem bfImprovable_not_running (es : List Edge) : bfImprovable w sc es ≠ .running := by
  induction es with
  | nil => simp [bfImprovable]
  | cons e es ih =>
    rw [bfImprovable]
    cases h : improvement w sc e with
    | running => exact absurd h (improvement_not_running _ _)
    | panicked => simp
    | done r =>
      rw [Run.bind_done]
      split
      · simp
      · exact ih

theorem bellmanFord_ends (hw : WF g) :
    (∃ r, bellmanFord g w s = .done r) ∨ (bellmanFord g w s = .panicked ∧ OverflowingWalk g w s) := by
  unfold bellmanFord
  cases h1 : Run.forEach (bfRound g w) (initialScores s) (List.range' 1 (g.vertexCount - 1)) with
  | running => exact absurd h1 (forEach_not_running bfRound_not_running _ _)
  | panicked =>
    right
    refine ⟨rfl, ?_⟩
    obtain ⟨sc1, i, h2, _, h3⟩ := forEach_panicked (AnyInv g w s) _ (by
      intro a a' ha i _ hb
      exact (any_edges g.edges (fun e he => hw.mem_edges.1 he) ha hb).1) _ AnyInv.initial h1
    exact any_edges_panicked g.edges (fun e he => hw.mem_edges.1 he) h2 h3
  | done sc =>
    rw [Run.bind_done]
    have hi := (any_rounds hw _ 0 AnyInv.initial CoversBelow.initial h1).1
    cases h2 : bfImprovable w sc g.edges with
    | running => exact absurd h2 (bfImprovable_not_running _)
    | panicked =>
      right
      obtain ⟨e, h3, h4⟩ := bfImprovable_panicked _ h2
      exact ⟨rfl, hi.panics (hw.mem_edges.1 h3) h4⟩
    | done b => exact .inl ⟨_, rfl⟩

/-- Invariant of the `while` loop of `spfa`. -/
structure SAny (g : DirectedGraph) (w : WeightFn) (s : VertexId) (p : Scores × Queue VertexId) : Prop where
  inv : AnyInv g w s p.1
  range : InRange p.1
  rel : ∀ u, u ∉ p.2.queue → RelBelow g w p.1 u

theorem spfa_any_edges (hw : WF g) (done es : List Edge)
    (hes : ∀ e ∈ done ++ es, e.src = x ∧ g.containsEdge e = true) (p p' : Scores × Queue VertexId)
    (hi : AnyInv g w s p.1) (hrg : InRange p.1) (hrel : ∀ u, u ∉ p.2.queue → u ≠ x → RelBelow g w p.1 u)
    (hdone : x ∉ p.2.queue → ∀ e ∈ done, ∀ sp, get? p.1 x = some sp → sp.score + w e < 2 ^ 63 - 1 →
      ∃ sv, get? p.1 e.dst = some sv ∧ sv.score ≤ sp.score + w e)
    (h : Run.forEach (spfaRelax w) p es = .done p') :
    AnyInv g w s p'.1 ∧ InRange p'.1 ∧ (∀ u, u ∉ p'.2.queue → u ≠ x → RelBelow g w p'.1 u) ∧
      (x ∉ p'.2.queue → ∀ e ∈ done ++ es, ∀ sp, get? p'.1 x = some sp → sp.score + w e < 2 ^ 63 - 1 →
        ∃ sv, get? p'.1 e.dst = some sv ∧ sv.score ≤ sp.score + w e) ∧
      phi g p'.1 + p'.2.queue.length ≤ phi g p.1 + p.2.queue.length := by
  induction es generalizing p done with
  | nil =>
    cases h
    exact ⟨hi, hrg, hrel, by simpa using hdone, Nat.le_refl _⟩
  | cons e es ih =>
    rw [Run.forEach, Run.bind_eq_done] at h
    obtain ⟨p1, h1, h2⟩ := h
    rw [spfaRelax_eq, Run.bind_eq_done] at h1
    obtain ⟨r, h1, h3⟩ := h1
    cases h3
    obtain ⟨he1, he2⟩ := hes e (by simp)
    obtain ⟨i1, l1, _, r1, o1⟩ := hi.relax he2 h1
    have hkeep : ∀ u, u ∉ (if r.isSome then p.2.push e.dst else p.2).queue →
        u ∉ p.2.queue ∧ get? (applied p.1 e r) u = get? p.1 u := by
      intro u hu
      cases r with
      | none => exact ⟨hu, rfl⟩
      | some q =>
        simp only [Option.isSome_some, if_true, Queue.push, List.mem_append, List.mem_singleton, not_or] at hu
        exact ⟨hu.1, o1 u hu.2⟩
    have hnew := ih (done ++ [e]) (by simpa using hes) (applied p.1 e r, if r.isSome then p.2.push e.dst else p.2) i1 (hrg.relax h1)
      (by
        intro u hu hux sp v hsp huv hlt
        obtain ⟨hu1, hu2⟩ := hkeep u hu
        simp only [hu2] at hsp
        obtain ⟨sv, h3, h4⟩ := hrel u hu1 hux sp v hsp huv hlt
        obtain ⟨sv', h5, h6⟩ := l1 _ _ h3
        exact ⟨sv', h5, Int.le_trans h6 h4⟩)
      (by
        intro hx e' he' sp hsp hlt
        obtain ⟨hx1, hx2⟩ := hkeep x hx
        simp only [hx2] at hsp
        rcases List.mem_append.1 he' with he' | he'
        · obtain ⟨sv, h3, h4⟩ := hdone hx1 e' he' sp hsp hlt
          obtain ⟨sv', h5, h6⟩ := l1 _ _ h3
          exact ⟨sv', h5, Int.le_trans h6 h4⟩
        · rw [List.mem_singleton] at he'
          subst he'
          exact r1 sp (by rw [he1]; exact hsp) hlt)
      h2
    obtain ⟨a1, a2, a3, a4, a5⟩ := hnew
    refine ⟨a1, a2, a3, by simpa using a4, ?_⟩
    refine Nat.le_trans a5 ?_
    cases r with
    | none => exact Nat.le_refl _
    | some q =>
      have := phi_relax hw hrg he2 h1
      simp only [Option.isSome_some, if_true, Queue.push, List.length_append, List.length_singleton]
      omega

theorem SAny.step (hw : WF g) {p p' : Scores × Queue VertexId} (hi : SAny g w s p) {rest : List VertexId}
    (hq : p.2.queue = x :: rest) (h : Run.forEach (spfaRelax w) (p.1, ⟨rest⟩) (g.outboundEdges x) = .done p') :
    SAny g w s p' ∧ phi g p'.1 + p'.2.queue.length < phi g p.1 + p.2.queue.length := by
  obtain ⟨h1, h2, h3, h4, h5⟩ := spfa_any_edges hw [] (g.outboundEdges x)
    (fun e he => ⟨(hw.mem_outbound.1 (by simpa using he)).2, (hw.mem_outbound.1 (by simpa using he)).1⟩) (p.1, ⟨rest⟩) p' hi.inv hi.range
    (by
      intro u hu hux
      refine hi.rel u ?_
      rw [hq]
      simpa [hux] using hu) (by simp) h
  refine ⟨⟨h1, h2, ?_⟩, ?_⟩
  · intro u hu
    by_cases hux : u = x
    · subst hux
      intro sp v hsp huv hlt
      exact h4 hu ⟨u, v⟩ (by simpa using hw.mem_outbound.2 ⟨huv, rfl⟩) sp hsp hlt
    · exact h3 u hu hux
  · rw [hq]
    simp only [List.length_cons] at h5 ⊢
    omega

theorem SAny.initial : SAny g w s (initialScores s, Queue.new.push s) := by
  have h := SInv.initial (g := g) (w := w) (s := s) (M := 0)
  refine ⟨AnyInv.initial, h.range, ?_⟩
  intro u hu sp v hsp huv _
  exact h.rel u hu sp v hsp huv

/-- SPFA stops for all weights, by returning the lightest walks or by panicking. -/
theorem spfa_any (hw : WF g) :
    (∃ sc, Returns (spfa g w s) sc ∧ LightestBelowMax g w s sc ∧ ¬ NegativeCycleBelowMax g w s) ∨
    (Panics (spfa g w s) ∧ OverflowingWalk g w s) := by
  have key : ∀ (n : Nat) (p : Scores × Queue VertexId), SAny g w s p → phi g p.1 + p.2.queue.length = n →
      (∃ sc, LoopTo (spfaStep g w) p sc ∧ LightestBelowMax g w s sc ∧ ¬ NegativeCycleBelowMax g w s) ∨
      (LoopPanics (spfaStep g w) p ∧ OverflowingWalk g w s) := by
    intro n
    induction n using Nat.strong_induction_on with
    | _ n ih =>
      intro p hp hn
      cases hq : p.2.queue with
      | nil =>
        left
        refine ⟨p.1, .stop (by rw [spfaStep_nil hq]; exact Returns.ret _), ?_⟩
        exact hp.inv.lightest (fun u => hp.rel u (by rw [hq]; simp))
      | cons x rest =>
        cases hf : Run.forEach (spfaRelax w) (p.1, ⟨rest⟩) (g.outboundEdges x) with
        | running => exact absurd hf (forEach_not_running spfaRelax_not_running _ _)
        | panicked =>
          right
          constructor
          · refine .stop ?_
            rw [spfaStep_cons hq, hf]
            exact Panics.bind_left ⟨0, fun _ _ => rfl⟩
          · obtain ⟨p1, e, h1, h2, h3⟩ := forEach_panicked (fun p => AnyInv g w s p.1) _ (by
              intro a a' ha e he hb
              rw [spfaRelax_eq, Run.bind_eq_done] at hb
              obtain ⟨r, h1, h3⟩ := hb
              cases h3
              exact (ha.relax (hw.mem_outbound.1 he).1 h1).1) _ hp.inv hf
            refine AnyInv.panics h1 (hw.mem_outbound.1 h2).1 ?_
            rw [spfaRelax_eq] at h3
            cases hi : improvement w p1.1 e with
            | running => rw [hi] at h3; cases h3
            | panicked => rfl
            | done r => rw [hi] at h3; cases h3
        | done p' =>
          obtain ⟨h1, h2⟩ := hp.step hw hq hf
          have hstep : Returns (spfaStep g w p) (.inl p') := by
            rw [spfaStep_cons hq, hf]
            exact Returns.bind (Returns.lift_done _) (Returns.ret _)
          rcases ih _ (by omega) p' h1 rfl with ⟨sc, h3, h4⟩ | ⟨h3, h4⟩
          · exact .inl ⟨sc, .next hstep h3, h4⟩
          · exact .inr ⟨.next hstep h3, h4⟩
  rcases key _ _ SAny.initial rfl with ⟨sc, h1, h2⟩ | ⟨h1, h2⟩
  · exact .inl ⟨sc, h1.returns, h2⟩
  · exact .inr ⟨h1.panics, h2⟩

end ShortestPath
end GC
