/- Proofs about Bellman-Ford and SPFA. -/
import Verif.Proofs.DagPaths
import Mathlib.Algebra.Order.BigOperators.Group.List
namespace GC
open DirectedGraph HMap
namespace ShortestPath

variable {g : DirectedGraph} {w : WeightFn} {s u v x : VertexId} {sc sc' : Scores} {M : Int}

/-- The effect of a relaxation on the map. -/
def applied (sc : Scores) (e : Edge) : Option ScoredPath → Scores
  | some sp => HMap.insert sc e.dst sp
  | none => sc

theorem improvement_cases {e : Edge} {r : Option ScoredPath} (h : improvement w sc e = .done r) :
    (r = none ∧ ∀ sp, get? sc e.src = some sp → currentScoreOfVertex sc e.dst ≤ sp.score + w e) ∨
    ∃ sp, get? sc e.src = some sp ∧ r = some (newEntry w sp e) ∧ sp.score + w e < currentScoreOfVertex sc e.dst := by
  unfold improvement at h
  cases hs : get? sc e.src with
  | none =>
    simp only [hs] at h
    cases h
    exact .inl ⟨rfl, by simp⟩
  | some sp =>
    simp only [hs] at h
    rw [Run.bind_eq_done] at h
    obtain ⟨ns, h1, h2⟩ := h
    rw [addI64_eq h1] at h2
    split at h2
    · rename_i hlt
      cases h2
      exact .inr ⟨sp, rfl, rfl, hlt⟩
    · rename_i hlt
      cases h2
      refine .inl ⟨rfl, ?_⟩
      intro q hq
      cases hq
      omega

theorem current_some {cur : ScoredPath} (h : get? sc v = some cur) : currentScoreOfVertex sc v = cur.score := by
  simp [currentScoreOfVertex, h]

/-- What the algorithms keep true. -/
structure Inv (g : DirectedGraph) (w : WeightFn) (s : VertexId) (M : Int) (sc : Scores) : Prop extends Gen g w s sc where
  upper : Upper M sc

/-- Bounds on the weights. -/
structure Bounds (g : DirectedGraph) (w : WeightFn) (M : Int) : Prop where
  nonneg : 0 ≤ M
  le : ∀ e, g.containsEdge e = true → |w e| ≤ M
  small : M * g.vertexCount < 2 ^ 63 - 1

theorem Inv.initial : Inv g w s M (initialScores s) := ⟨Gen.initial, Upper.initial M⟩

/-- The effect of a relaxation. -/
theorem Inv.relax (hw : WF g) (hb : Bounds g w M) (hi : Inv g w s M sc) {e : Edge} (he : g.containsEdge e = true)
    {r : Option ScoredPath} (h : improvement w sc e = .done r) :
    Inv g w s M (applied sc e r) ∧ Le sc (applied sc e r) ∧
      (¬ NegativeCycle g w s → Simple sc → Simple (applied sc e r)) ∧
      (∀ sp, get? sc e.src = some sp → ∃ sv, get? (applied sc e r) e.dst = some sv ∧ sv.score ≤ sp.score + w e) ∧
      (∀ y, y ≠ e.dst → get? (applied sc e r) y = get? sc y) := by
  rcases improvement_cases h with ⟨rfl, hnone⟩ | ⟨sp, hsp, rfl, hlt⟩
  · refine ⟨hi, Le.refl _, fun _ h => h, ?_, fun _ _ => rfl⟩
    intro sp hsp
    have h1 := hnone sp hsp
    have h2 := hi.toGen.sum_upper hw hi.upper hb.nonneg hb.le hb.small hsp he
    cases hd : get? sc e.dst with
    | none =>
      simp only [currentScoreOfVertex, hd, Option.map_none, Option.getD_none, i64Max] at h1
      omega
    | some sv =>
      rw [current_some hd] at h1
      exact ⟨sv, hd, h1⟩
  · have hlt' : ∀ cur, get? sc e.dst = some cur → sp.score + w e < cur.score := by
      intro cur hc
      rw [current_some hc] at hlt
      exact hlt
    refine ⟨⟨hi.toGen.insert hsp hlt' he, Upper.insert hsp hlt' (abs_le.1 (hb.le e he)).2 hb.nonneg hi.upper⟩, Le.insert hlt',
      fun hn hs => Simple.insert hi.toGen hsp hlt' hn he hs, ?_, ?_⟩
    · intro sp' hsp'
      rw [hsp] at hsp'
      cases hsp'
      exact ⟨_, by simp only [applied]; rw [get?_insert, if_pos rfl], Int.le_refl _⟩
    · intro y hy
      simp only [applied]
      rw [get?_insert, if_neg hy]

/-- The lower bound on scores after `k` relaxations. -/
def Lower (M : Int) (k : Nat) (sc : Scores) : Prop := ∀ v sp, get? sc v = some sp → -(k * M) ≤ sp.score

theorem Lower.initial : Lower M 0 (initialScores s) := by
  intro v sp h
  rw [get?_initial] at h
  split at h
  · cases h; simp
  · cases h

theorem Lower.mono (hM : 0 ≤ M) {k k' : Nat} (h : k ≤ k') (hl : Lower M k sc) : Lower M k' sc := by
  intro v sp hv
  have h1 := hl v sp hv
  have h2 : (k : Int) ≤ k' := by exact_mod_cast h
  nlinarith

theorem Lower.relax (hb : Bounds g w M) {k : Nat} (hl : Lower M k sc) {e : Edge} (he : g.containsEdge e = true)
    {r : Option ScoredPath} (h : improvement w sc e = .done r) : Lower M (k + 1) (applied sc e r) := by
  rcases improvement_cases h with ⟨rfl, _⟩ | ⟨sp, hsp, rfl, _⟩
  · exact hl.mono hb.nonneg (by omega)
  · intro x q hq
    simp only [applied] at hq
    rw [get?_insert] at hq
    split at hq
    · cases hq
      have h1 := hl _ _ hsp
      have h2 := (abs_le.1 (hb.le e he)).1
      simp only
      push_cast
      linarith
    · have h1 := hl _ _ hq
      have := hb.nonneg
      push_cast
      linarith

theorem improvement_done {e : Edge} (h : ∀ sp, get? sc e.src = some sp → -2 ^ 63 ≤ sp.score + w e ∧ sp.score + w e < 2 ^ 63) :
    ∃ r, improvement w sc e = .done r := by
  unfold improvement
  cases hs : get? sc e.src with
  | none => exact ⟨none, rfl⟩
  | some sp =>
    obtain ⟨h1, h2⟩ := h sp hs
    simp only
    rw [addI64_done h1 h2, Run.bind_done]
    split
    · exact ⟨_, rfl⟩
    · exact ⟨_, rfl⟩

/-- Relaxing in a state with simple paths does not panic. -/
theorem improvement_simple (hw : WF g) (hb : Bounds g w M) (hi : Inv g w s M sc) (hs : Simple sc) {e : Edge}
    (he : g.containsEdge e = true) : ∃ r, improvement w sc e = .done r := by
  refine improvement_done fun sp hsp => ?_
  have := abs_lt.1 (hi.toGen.sum_small hw hs hb.nonneg hb.le hb.small hsp he)
  omega

/-- Relaxing early does not panic. -/
theorem improvement_lower (hw : WF g) (hb : Bounds g w M) (hi : Inv g w s M sc) {k : Nat} (hl : Lower M k sc)
    (hk : ((k : Int) + 1) * M < 2 ^ 63) {e : Edge} (he : g.containsEdge e = true) : ∃ r, improvement w sc e = .done r := by
  refine improvement_done fun sp hsp => ?_
  have h1 := hi.toGen.sum_upper hw hi.upper hb.nonneg hb.le hb.small hsp he
  have h2 := hl _ _ hsp
  have h3 := (abs_le.1 (hb.le e he)).1
  constructor
  · linarith
  · omega

theorem bfRelax_eq (e : Edge) : bfRelax w sc e = (improvement w sc e).bind fun r => .done (applied sc e r) := by
  unfold bfRelax
  congr 1
  funext r
  cases r <;> rfl

/-- One round of Bellman-Ford, over part of the edges. -/
theorem bf_edges (hw : WF g) (hb : Bounds g w M) (es : List Edge) (hes : ∀ e ∈ es, g.containsEdge e = true) (hi : Inv g w s M sc)
    (h : Run.forEach (bfRelax w) sc es = .done sc') :
    Inv g w s M sc' ∧ Le sc sc' ∧ (¬ NegativeCycle g w s → Simple sc → Simple sc') ∧
      (∀ e ∈ es, ∀ sp, get? sc e.src = some sp → ∃ sv, get? sc' e.dst = some sv ∧ sv.score ≤ sp.score + w e) ∧
      ∀ k, Lower M k sc → Lower M (k + es.length) sc' := by
  induction es generalizing sc with
  | nil =>
    cases h
    exact ⟨hi, Le.refl _, fun _ h => h, by simp, fun _ h => h⟩
  | cons e es ih =>
    rw [Run.forEach, Run.bind_eq_done] at h
    obtain ⟨sc1, h1, h2⟩ := h
    rw [bfRelax_eq, Run.bind_eq_done] at h1
    obtain ⟨r, h1, h3⟩ := h1
    cases h3
    have he := hes e (by simp)
    obtain ⟨i1, l1, s1, r1, _⟩ := hi.relax hw hb he h1
    obtain ⟨i2, l2, s2, r2, lo2⟩ := ih (fun e he => hes e (by simp [he])) i1 h2
    refine ⟨i2, l1.trans l2, fun hn hs => s2 hn (s1 hn hs), ?_, ?_⟩
    · intro e' he' sp hsp
      rcases List.mem_cons.1 he' with rfl | he'
      · obtain ⟨sv, h5, h6⟩ := r1 sp hsp
        obtain ⟨sv', h7, h8⟩ := l2 _ _ h5
        exact ⟨sv', h7, Int.le_trans h8 h6⟩
      · obtain ⟨sp', h5, h6⟩ := l1 _ _ hsp
        obtain ⟨sv, h7, h8⟩ := r2 e' he' sp' h5
        exact ⟨sv, h7, by omega⟩
    · intro k hk
      have := lo2 (k + 1) (hk.relax hb he h1)
      have e2 : k + (e :: es).length = k + 1 + es.length := by simp only [List.length_cons]; omega
      rw [e2]
      exact this

theorem bf_round (hw : WF g) (hb : Bounds g w M) (hi : Inv g w s M sc) {i : Nat} (h : bfRound g w sc i = .done sc') :
    Inv g w s M sc' ∧ Le sc sc' ∧ (¬ NegativeCycle g w s → Simple sc → Simple sc') ∧
      (∀ u v sp, Adj g u v → get? sc u = some sp → ∃ sv, get? sc' v = some sv ∧ sv.score ≤ sp.score + w ⟨u, v⟩) ∧
      ∀ k, Lower M k sc → Lower M (k + g.edges.length) sc' := by
  obtain ⟨h1, h2, h3, h4, h5⟩ := bf_edges hw hb g.edges (fun e he => hw.mem_edges.1 he) hi h
  exact ⟨h1, h2, h3, fun u v sp huv hsp => h4 ⟨u, v⟩ (hw.mem_edges.2 huv) sp hsp, h5⟩

/-- Short walks have been taken into account. -/
def Covers (g : DirectedGraph) (w : WeightFn) (s : VertexId) (k : Nat) (sc : Scores) : Prop :=
  ∀ v l, WalkFromTo g s v l → l.length ≤ k + 1 → ∃ sp, get? sc v = some sp ∧ sp.score ≤ walkWeight w l

theorem bf_rounds (hw : WF g) (hb : Bounds g w M) (is : List Nat) (k : Nat) (hi : Inv g w s M sc) (hc : Covers g w s k sc)
    (h : Run.forEach (bfRound g w) sc is = .done sc') :
    Inv g w s M sc' ∧ (¬ NegativeCycle g w s → Simple sc → Simple sc') ∧ Covers g w s (k + is.length) sc' ∧
      ∀ k, Lower M k sc → Lower M (k + is.length * g.edges.length) sc' := by
  induction is generalizing sc k with
  | nil =>
    cases h
    exact ⟨hi, fun _ h => h, hc, fun k h => by simpa using h⟩
  | cons i is ih =>
    rw [Run.forEach, Run.bind_eq_done] at h
    obtain ⟨sc1, h1, h2⟩ := h
    obtain ⟨i1, l1, s1, r1, lo1⟩ := bf_round hw hb hi h1
    have hc1 : Covers g w s (k + 1) sc1 := by
      intro v l hl hlen
      rcases hl.snoc_cases with ⟨rfl, rfl⟩ | ⟨u, l', rfl, h3, h4⟩
      · obtain ⟨sp, h5, h6⟩ := hc s [s] (.single s) (by simp)
        obtain ⟨sp', h7, h8⟩ := l1 _ _ h5
        exact ⟨sp', h7, by omega⟩
      · obtain ⟨sp, h5, h6⟩ := hc u l' h3 (by simp at hlen; omega)
        obtain ⟨sv, h7, h8⟩ := r1 u v sp h4 h5
        exact ⟨sv, h7, by rw [walkWeight_snoc h3]; omega⟩
    obtain ⟨i2, s2, c2, lo2⟩ := ih (k + 1) i1 hc1 h2
    refine ⟨i2, fun hn hs => s2 hn (s1 hn hs), ?_, ?_⟩
    · have e : k + (i :: is).length = k + 1 + is.length := by simp only [List.length_cons]; omega
      rw [e]
      exact c2
    · intro k hk
      have h3 := lo2 _ (lo1 k hk)
      have e : k + (i :: is).length * g.edges.length = k + g.edges.length + is.length * g.edges.length := by
        rw [List.length_cons, Nat.succ_mul]; omega
      rw [e]
      exact h3

theorem Covers.initial : Covers g w s 0 (initialScores s) := by
  intro v l hl hlen
  rcases hl.snoc_cases with ⟨rfl, rfl⟩ | ⟨u, l', rfl, h3, h4⟩
  · exact ⟨⟨⟨[s]⟩, 0⟩, by simp [get?_initial], by simp [walkWeight]⟩
  · exfalso
    have := List.length_pos_of_ne_nil h3.ne_nil
    rw [List.length_append, List.length_singleton] at hlen
    omega

theorem bfImprovable_false (es : List Edge) (h : bfImprovable w sc es = .done false) :
    ∀ e ∈ es, improvement w sc e = .done none := by
  induction es with
  | nil => simp
  | cons e es ih =>
    rw [bfImprovable, Run.bind_eq_done] at h
    obtain ⟨r, h1, h2⟩ := h
    cases r with
    | some q => simp at h2
    | none =>
      simp only [Option.isSome_none, Bool.false_eq_true, if_false] at h2
      intro e' he'
      rcases List.mem_cons.1 he' with rfl | he'
      · exact h1
      · exact ih h2 e' he'

theorem bfImprovable_true (es : List Edge) (h : bfImprovable w sc es = .done true) :
    ∃ e ∈ es, ∃ sp, improvement w sc e = .done (some sp) := by
  induction es with
  | nil => cases h
  | cons e es ih =>
    rw [bfImprovable, Run.bind_eq_done] at h
    obtain ⟨r, h1, h2⟩ := h
    cases r with
    | some q => exact ⟨e, by simp, q, h1⟩
    | none =>
      simp only [Option.isSome_none, Bool.false_eq_true, if_false] at h2
      obtain ⟨e', h3, h4⟩ := ih h2
      exact ⟨e', by simp [h3], h4⟩

theorem bfImprovable_done (es : List Edge) (h : ∀ e ∈ es, ∃ r, improvement w sc e = .done r) :
    ∃ b, bfImprovable w sc es = .done b := by
  induction es with
  | nil => exact ⟨false, rfl⟩
  | cons e es ih =>
    obtain ⟨r, hr⟩ := h e (by simp)
    rw [bfImprovable, hr, Run.bind_done]
    split
    · exact ⟨_, rfl⟩
    · exact ih (fun e he => h e (by simp [he]))

/-- If every improvable edge was improved there is nothing left: used when an algorithm stops. -/
theorem Inv.rel_of_none (hw : WF g) (hb : Bounds g w M) (hi : Inv g w s M sc)
    (h : ∀ e, g.containsEdge e = true → improvement w sc e = .done none) : ∀ u, Rel g w sc u := by
  intro u sp v hsp huv
  obtain ⟨_, _, _, h4, _⟩ := hi.relax hw hb (e := ⟨u, v⟩) huv (h _ huv)
  exact h4 sp hsp

theorem bellmanFord_correct (hw : WF g) (hb : Bounds g w M) {r : Option Scores} (h : bellmanFord g w s = .done r) :
    (∀ sc, r = some sc → LightestWalks g w s sc ∧ ¬ NegativeCycle g w s) ∧ (r = none → NegativeCycle g w s) := by
  unfold bellmanFord at h
  rw [Run.bind_eq_done] at h
  obtain ⟨sc, h1, h⟩ := h
  rw [Run.bind_eq_done] at h
  obtain ⟨b, h2, h⟩ := h
  obtain ⟨hi, hs, hc, _⟩ := bf_rounds hw hb _ 0 Inv.initial Covers.initial h1
  cases b with
  | false =>
    cases h
    refine ⟨?_, by simp⟩
    rintro sc' ⟨⟩
    have h3 := bfImprovable_false _ h2
    exact hi.toGen.lightest (hi.rel_of_none hw hb fun e he => h3 e (hw.mem_edges.2 he))
  | true =>
    cases h
    refine ⟨by simp, fun _ => ?_⟩
    by_contra hn
    obtain ⟨e, he, q, h3⟩ := bfImprovable_true _ h2
    have he' := hw.mem_edges.1 he
    rcases improvement_cases h3 with ⟨c, _⟩ | ⟨sp, hsp, _, hlt⟩
    · cases c
    · have hsimple := hs hn Simple.initial
      have hlen := hi.toGen.path_length hw hsimple hsp he'
      obtain ⟨c1, c2⟩ := hi.walk _ _ hsp
      have hlt' : ∀ cur, get? sc e.dst = some cur → sp.score + w e < cur.score := by
        intro cur hcur
        rw [current_some hcur] at hlt
        exact hlt
      -- the improved path is again simple, so it was covered
      have hsn := Simple.insert hi.toGen hsp hlt' hn he' hsimple e.dst _ (by rw [get?_insert, if_pos rfl])
      have hwk := c1.snoc (v := e.dst) he'
      have hlen2 : (sp.path.vertices ++ [e.dst]).length ≤ g.vertices.length := by
        refine (hsn.subperm fun y hy => ?_).length_le
        exact mem_vertices.2 (reach_vertex hw (hi.toGen.key_reach hsp) he' (hwk.mem_reach hy))
      have hv : g.vertices.length = g.vertexCount := by simp [vertexCount, vertices, HMap.keys]
      obtain ⟨cur, c3, c4⟩ := hc e.dst _ hwk (by
        simp only [List.length_range']
        omega)
      have := hlt' cur c3
      rw [walkWeight_snoc c1, ← c2] at c4
      have e' : (⟨e.src, e.dst⟩ : Edge) = e := rfl
      rw [e'] at c4
      omega

theorem forEach_done_of {σ α : Type} {body : σ → α → Run σ} (I : σ → Prop) (l : List α)
    (h : ∀ s, I s → ∀ a ∈ l, ∃ s', body s a = .done s' ∧ I s') (s : σ) (hs : I s) :
    ∃ s', Run.forEach body s l = .done s' ∧ I s' := by
  induction l generalizing s with
  | nil => exact ⟨s, rfl, hs⟩
  | cons a l ih =>
    obtain ⟨s1, h1, h2⟩ := h s hs a (by simp)
    obtain ⟨s', h3, h4⟩ := ih (fun s hs a ha => h s hs a (by simp [ha])) s1 h2
    exact ⟨s', by rw [Run.forEach, h1]; exact h3, h4⟩

/-- Without reachable negative cycle, small weights suffice for Bellman-Ford to return. -/
theorem bellmanFord_done (hw : WF g) (hb : Bounds g w M) (hn : ¬ NegativeCycle g w s) : ∃ r, bellmanFord g w s = .done r := by
  have hround : ∀ sc : Scores, Inv g w s M sc ∧ Simple sc → ∀ e ∈ g.edges, ∃ sc', bfRelax w sc e = .done sc' ∧ (Inv g w s M sc' ∧ Simple sc') := by
    rintro sc ⟨hi, hs⟩ e he
    have he' := hw.mem_edges.1 he
    obtain ⟨r, hr⟩ := improvement_simple hw hb hi hs he'
    obtain ⟨i1, _, s1, _⟩ := hi.relax hw hb he' hr
    exact ⟨_, by rw [bfRelax_eq, hr]; rfl, i1, s1 hn hs⟩
  obtain ⟨sc, h1, hi, hs⟩ := forEach_done_of (body := bfRound g w) (fun sc => Inv g w s M sc ∧ Simple sc) (List.range' 1 (g.vertexCount - 1))
    (fun sc h i _ => forEach_done_of _ _ hround sc h) (initialScores s) ⟨Inv.initial, Simple.initial⟩
  obtain ⟨b, hb'⟩ := bfImprovable_done g.edges (fun e he => improvement_simple hw hb hi hs (hw.mem_edges.1 he))
  exact ⟨_, by unfold bellmanFord; rw [h1, Run.bind_done, hb', Run.bind_done]⟩

/-- Whatever cycles there are, Bellman-Ford returns if the weights are small enough for its number of relaxations. -/
theorem bellmanFord_done' (hw : WF g) (hb : Bounds g w M)
    (hbig : ((g.vertexCount : Int) * g.edges.length + 1) * M < 2 ^ 63) : ∃ r, bellmanFord g w s = .done r := by
  have hedges : ∀ (es : List Edge) (k : Nat) (sc : Scores), (∀ e ∈ es, g.containsEdge e = true) → Inv g w s M sc → Lower M k sc →
      ((k : Int) + es.length) * M < 2 ^ 63 → ∃ sc', Run.forEach (bfRelax w) sc es = .done sc' := by
    intro es
    induction es with
    | nil => intro k sc _ _ _ _; exact ⟨sc, rfl⟩
    | cons e es ih =>
      intro k sc hes hi hl hk
      have he := hes e (by simp)
      have hM := hb.nonneg
      obtain ⟨r, hr⟩ := improvement_lower hw hb hi hl (by
        simp only [List.length_cons] at hk
        push_cast at hk
        nlinarith [Int.natCast_nonneg es.length]) he
      obtain ⟨i1, _⟩ := hi.relax hw hb he hr
      obtain ⟨sc', h'⟩ := ih (k + 1) _ (fun e he => hes e (by simp [he])) i1 (hl.relax hb he hr) (by
        simp only [List.length_cons] at hk
        push_cast at hk ⊢
        nlinarith)
      exact ⟨sc', by rw [Run.forEach, bfRelax_eq, hr]; exact h'⟩
  have hrounds : ∀ (is : List Nat) (k : Nat) (sc : Scores), Inv g w s M sc → Lower M k sc →
      ((k : Int) + is.length * g.edges.length) * M < 2 ^ 63 → ∃ sc', Run.forEach (bfRound g w) sc is = .done sc' := by
    intro is
    induction is with
    | nil => intro k sc _ _ _; exact ⟨sc, rfl⟩
    | cons i is ih =>
      intro k sc hi hl hk
      have hM := hb.nonneg
      have h0 : (0 : Int) ≤ is.length * g.edges.length := by positivity
      have hk' : ((k : Int) + g.edges.length + is.length * g.edges.length) * M < 2 ^ 63 := by
        simp only [List.length_cons] at hk
        push_cast at hk
        nlinarith
      obtain ⟨sc1, h1⟩ := hedges g.edges k sc (fun e he => hw.mem_edges.1 he) hi hl (by nlinarith)
      obtain ⟨i1, _, _, _, lo1⟩ := bf_round hw hb hi (i := i) h1
      obtain ⟨sc', h'⟩ := ih _ sc1 i1 (lo1 k hl) (by push_cast; exact hk')
      exact ⟨sc', by rw [Run.forEach]; have : bfRound g w sc i = .done sc1 := h1; rw [this]; exact h'⟩
  have hM := hb.nonneg
  have hE : (0 : Int) ≤ g.edges.length := by positivity
  obtain ⟨sc, h1⟩ := hrounds (List.range' 1 (g.vertexCount - 1)) 0 (initialScores s) Inv.initial Lower.initial (by
    have h2 : ((g.vertexCount - 1 : Nat) : Int) ≤ g.vertexCount := by omega
    simp only [List.length_range']
    push_cast
    nlinarith [mul_le_mul_of_nonneg_right h2 hE])
  obtain ⟨hi, _, _, lo⟩ := bf_rounds hw hb _ 0 Inv.initial Covers.initial h1
  have hl := lo 0 Lower.initial
  obtain ⟨b, hb'⟩ := bfImprovable_done g.edges (fun e he => improvement_lower hw hb hi hl (by
    have h2 : ((g.vertexCount - 1 : Nat) : Int) ≤ g.vertexCount := by omega
    simp only [List.length_range']
    push_cast
    nlinarith [mul_le_mul_of_nonneg_right h2 hE]) (hw.mem_edges.1 he))
  exact ⟨_, by unfold bellmanFord; rw [h1, Run.bind_done, hb', Run.bind_done]⟩

/-! ### SPFA -/

theorem spfaRelax_eq (p : Scores × Queue VertexId) (e : Edge) :
    spfaRelax w p e = (improvement w p.1 e).bind fun r => .done (applied p.1 e r, if r.isSome then p.2.push e.dst else p.2) := by
  unfold spfaRelax
  congr 1
  funext r
  cases r <;> rfl

/-- Scores are `i64` values. -/
def InRange (sc : Scores) : Prop := ∀ v sp, get? sc v = some sp → -2 ^ 63 ≤ sp.score ∧ sp.score < 2 ^ 63

/-- Termination measure: how far the scores can still go down. -/
def phi (g : DirectedGraph) (sc : Scores) : Nat :=
  (g.vertices.map fun v => match get? sc v with
    | some sp => (sp.score + 2 ^ 63).toNat
    | none => 2 ^ 64).sum

theorem InRange.relax (hr : InRange sc) {e : Edge} {r : Option ScoredPath} (h : improvement w sc e = .done r) :
    InRange (applied sc e r) := by
  have h0 := h
  unfold improvement at h
  cases hs : get? sc e.src with
  | none => simp only [hs] at h; cases h; exact hr
  | some sp =>
    simp only [hs] at h
    rw [Run.bind_eq_done] at h
    obtain ⟨ns, h1, h2⟩ := h
    have hns : -2 ^ 63 ≤ ns ∧ ns < 2 ^ 63 := by
      unfold addI64 at h1
      split at h1
      · rename_i c
        rw [← Run.done.inj h1]; exact c
      · cases h1
    split at h2
    · cases h2
      intro x q hq
      simp only [applied] at hq
      rw [get?_insert] at hq
      split at hq
      · cases hq
        exact hns
      · exact hr x q hq
    · cases h2; exact hr

theorem phi_relax (hw : WF g) (hr : InRange sc) {e : Edge} (he : g.containsEdge e = true) {q : ScoredPath}
    (h : improvement w sc e = .done (some q)) : phi g (applied sc e (some q)) < phi g sc := by
  have hr' := hr.relax h
  have hq : get? (applied sc e (some q)) e.dst = some q := by simp only [applied]; rw [get?_insert, if_pos rfl]
  have hqr := hr' _ _ hq
  have hlt : ∀ cur, get? sc e.dst = some cur → q.score < cur.score := by
    intro cur hc
    rcases improvement_cases h with ⟨c, _⟩ | ⟨sp, _, hq, hlt⟩
    · cases c
    · cases hq
      rw [current_some hc] at hlt
      exact hlt
  unfold phi
  refine List.sum_lt_sum _ _ ?_ ⟨e.dst, mem_vertices.2 (hw.dst_mem he), ?_⟩
  · intro x hx
    by_cases hxe : x = e.dst
    · subst hxe
      rw [hq]
      cases hc : get? sc e.dst with
      | none => simp only; omega
      | some cur =>
        have := hlt cur hc
        simp only
        omega
    · simp only [applied]
      rw [get?_insert, if_neg hxe]
  · rw [hq]
    cases hc : get? sc e.dst with
    | none => simp only; omega
    | some cur =>
      have := hlt cur hc
      have := hr _ _ hc
      simp only
      omega

/-- Invariant of the `while` loop. -/
structure SInv (g : DirectedGraph) (w : WeightFn) (s : VertexId) (M : Int) (p : Scores × Queue VertexId) : Prop where
  inv : Inv g w s M p.1
  range : InRange p.1
  rel : ∀ u, u ∉ p.2.queue → Rel g w p.1 u

/-- The `for` loop of one round; `x` is the vertex taken from the queue. -/
theorem spfa_edges (hw : WF g) (hb : Bounds g w M) (done es : List Edge)
    (hes : ∀ e ∈ done ++ es, e.src = x ∧ g.containsEdge e = true) (p p' : Scores × Queue VertexId)
    (hi : Inv g w s M p.1) (hrg : InRange p.1) (hrel : ∀ u, u ∉ p.2.queue → u ≠ x → Rel g w p.1 u)
    (hdone : x ∉ p.2.queue → ∀ e ∈ done, ∀ sp, get? p.1 x = some sp → ∃ sv, get? p.1 e.dst = some sv ∧ sv.score ≤ sp.score + w e)
    (h : Run.forEach (spfaRelax w) p es = .done p') :
    Inv g w s M p'.1 ∧ InRange p'.1 ∧ (∀ u, u ∉ p'.2.queue → u ≠ x → Rel g w p'.1 u) ∧
      (x ∉ p'.2.queue → ∀ e ∈ done ++ es, ∀ sp, get? p'.1 x = some sp → ∃ sv, get? p'.1 e.dst = some sv ∧ sv.score ≤ sp.score + w e) ∧
      phi g p'.1 + p'.2.queue.length ≤ phi g p.1 + p.2.queue.length ∧ (¬ NegativeCycle g w s → Simple p.1 → Simple p'.1) := by
  induction es generalizing p done with
  | nil =>
    cases h
    exact ⟨hi, hrg, hrel, by simpa using hdone, Nat.le_refl _, fun _ h => h⟩
  | cons e es ih =>
    rw [Run.forEach, Run.bind_eq_done] at h
    obtain ⟨p1, h1, h2⟩ := h
    rw [spfaRelax_eq, Run.bind_eq_done] at h1
    obtain ⟨r, h1, h3⟩ := h1
    cases h3
    obtain ⟨he1, he2⟩ := hes e (by simp)
    obtain ⟨i1, l1, s1, r1, o1⟩ := hi.relax hw hb he2 h1
    -- a vertex that is not in the queue after the step keeps its entry
    have hkeep : ∀ u, u ∉ (if r.isSome then p.2.push e.dst else p.2).queue →
        u ∉ p.2.queue ∧ get? (applied p.1 e r) u = get? p.1 u := by
      intro u hu
      cases r with
      | none => exact ⟨hu, rfl⟩
      | some q =>
        simp only [Option.isSome_some, if_true, Queue.push, List.mem_append, List.mem_singleton, not_or] at hu
        exact ⟨hu.1, o1 u hu.2⟩
    have hnew := ih (done ++ [e]) (by simpa using hes) (applied p.1 e r, if r.isSome then p.2.push e.dst else p.2) i1 (hrg.relax h1)
      (by
        intro u hu hux sp v hsp huv
        obtain ⟨hu1, hu2⟩ := hkeep u hu
        simp only [hu2] at hsp
        obtain ⟨sv, h3, h4⟩ := hrel u hu1 hux sp v hsp huv
        obtain ⟨sv', h5, h6⟩ := l1 _ _ h3
        exact ⟨sv', h5, Int.le_trans h6 h4⟩)
      (by
        intro hx e' he' sp hsp
        obtain ⟨hx1, hx2⟩ := hkeep x hx
        simp only [hx2] at hsp
        rcases List.mem_append.1 he' with he' | he'
        · obtain ⟨sv, h3, h4⟩ := hdone hx1 e' he' sp hsp
          obtain ⟨sv', h5, h6⟩ := l1 _ _ h3
          exact ⟨sv', h5, Int.le_trans h6 h4⟩
        · rw [List.mem_singleton] at he'
          subst he'
          exact r1 sp (by rw [he1]; exact hsp))
      h2
    obtain ⟨a1, a2, a3, a4, a5, a6⟩ := hnew
    refine ⟨a1, a2, a3, by simpa using a4, ?_, fun hn hs => a6 hn (s1 hn hs)⟩
    refine Nat.le_trans a5 ?_
    cases r with
    | none => exact Nat.le_refl _
    | some q =>
      have := phi_relax hw hrg he2 h1
      simp only [Option.isSome_some, if_true, Queue.push, List.length_append, List.length_singleton]
      omega

theorem SInv.step (hw : WF g) (hb : Bounds g w M) {p p' : Scores × Queue VertexId} (hi : SInv g w s M p) {rest : List VertexId}
    (hq : p.2.queue = x :: rest) (h : Run.forEach (spfaRelax w) (p.1, ⟨rest⟩) (g.outboundEdges x) = .done p') :
    SInv g w s M p' ∧ phi g p'.1 + p'.2.queue.length < phi g p.1 + p.2.queue.length ∧
      (¬ NegativeCycle g w s → Simple p.1 → Simple p'.1) := by
  obtain ⟨h1, h2, h3, h4, h5, h6⟩ := spfa_edges hw hb [] (g.outboundEdges x)
    (fun e he => ⟨(hw.mem_outbound.1 (by simpa using he)).2, (hw.mem_outbound.1 (by simpa using he)).1⟩) (p.1, ⟨rest⟩) p' hi.inv hi.range
    (by
      intro u hu hux
      refine hi.rel u ?_
      rw [hq]
      simpa [hux] using hu) (by simp) h
  refine ⟨⟨h1, h2, ?_⟩, ?_, h6⟩
  · intro u hu
    by_cases hux : u = x
    · subst hux
      intro sp v hsp huv
      exact h4 hu ⟨u, v⟩ (by simpa using hw.mem_outbound.2 ⟨huv, rfl⟩) sp hsp
    · exact h3 u hu hux
  · rw [hq]
    simp only [List.length_cons] at h5 ⊢
    omega

theorem SInv.initial : SInv g w s M (initialScores s, Queue.new.push s) := by
  refine ⟨Inv.initial, ?_, ?_⟩
  · intro v sp h
    rw [get?_initial] at h
    split at h
    · cases h; simp
    · cases h
  · intro u hu sp v hsp
    simp only [Queue.new, Queue.push, List.nil_append, List.mem_singleton] at hu
    simp only [get?_initial, if_neg hu] at hsp
    cases hsp

theorem improvement_not_running (sc : Scores) (e : Edge) : improvement w sc e ≠ .running := by
  unfold improvement
  cases get? sc e.src with
  | none => simp
  | some sp =>
    simp only
    unfold addI64
    split
    · rw [Run.bind_done]; split <;> simp
    · simp

theorem spfaRelax_not_running (p : Scores × Queue VertexId) (e : Edge) : spfaRelax w p e ≠ .running := by
  rw [spfaRelax_eq]
  cases h : improvement w p.1 e with
  | running => exact absurd h (improvement_not_running _ _)
  | panicked => simp
  | done r => simp

theorem spfaStep_nil {p : Scores × Queue VertexId} (hq : p.2.queue = []) : spfaStep g w p = Prog.ret (.inr p.1) := by
  unfold spfaStep Queue.pop
  rw [hq]

theorem spfaStep_cons {p : Scores × Queue VertexId} {rest : List VertexId} (hq : p.2.queue = x :: rest) :
    spfaStep g w p = Prog.bind (Prog.lift (Run.forEach (spfaRelax w) (p.1, ⟨rest⟩) (g.outboundEdges x))) fun s' => Prog.ret (.inl s') := by
  unfold spfaStep Queue.pop
  rw [hq]

/-- With small weights SPFA stops, by returning the lightest walks or by panicking. -/
theorem spfa_ends (hw : WF g) (hb : Bounds g w M) :
    (∃ sc, Returns (spfa g w s) sc ∧ LightestWalks g w s sc ∧ ¬ NegativeCycle g w s) ∨ Panics (spfa g w s) := by
  have key : ∀ (n : Nat) (p : Scores × Queue VertexId), SInv g w s M p → phi g p.1 + p.2.queue.length = n →
      (∃ sc, LoopTo (spfaStep g w) p sc ∧ LightestWalks g w s sc ∧ ¬ NegativeCycle g w s) ∨ LoopPanics (spfaStep g w) p := by
    intro n
    induction n using Nat.strong_induction_on with
    | _ n ih =>
      intro p hp hn
      cases hq : p.2.queue with
      | nil =>
        left
        refine ⟨p.1, .stop (by rw [spfaStep_nil hq]; exact Returns.ret _), ?_⟩
        exact hp.inv.toGen.lightest (fun u => hp.rel u (by rw [hq]; simp))
      | cons x rest =>
        cases hf : Run.forEach (spfaRelax w) (p.1, ⟨rest⟩) (g.outboundEdges x) with
        | running => exact absurd hf (forEach_not_running spfaRelax_not_running _ _)
        | panicked =>
          right
          refine .stop ?_
          rw [spfaStep_cons hq, hf]
          exact Panics.bind_left ⟨0, fun _ _ => rfl⟩
        | done p' =>
          obtain ⟨h1, h2, _⟩ := hp.step hw hb hq hf
          have hstep : Returns (spfaStep g w p) (.inl p') := by
            rw [spfaStep_cons hq, hf]
            exact Returns.bind (Returns.lift_done _) (Returns.ret _)
          rcases ih _ (by omega) p' h1 rfl with ⟨sc, h3, h4⟩ | h3
          · exact .inl ⟨sc, .next hstep h3, h4⟩
          · exact .inr (.next hstep h3)
  rcases key _ _ SInv.initial rfl with ⟨sc, h1, h2⟩ | h1
  · exact .inl ⟨sc, h1.returns, h2⟩
  · exact .inr h1.panics

theorem spfa_not_panics (hw : WF g) (hb : Bounds g w M) (hn : ¬ NegativeCycle g w s) : ¬ Panics (spfa g w s) := by
  rintro ⟨n, h⟩
  refine loop_no_panic (step := spfaStep g w) (fun p => SInv g w s M p ∧ Simple p.1) (n := n) ?_ ?_ ⟨SInv.initial, Simple.initial⟩
    (h n (Nat.le_refl _))
  · rintro p p' ⟨hp, hs⟩ hst
    cases hq : p.2.queue with
    | nil => rw [spfaStep_nil hq] at hst; cases hst
    | cons x rest =>
      rw [spfaStep_cons hq] at hst
      simp only [Prog.bind, Prog.lift, Prog.ret] at hst
      rw [Run.bind_eq_done] at hst
      obtain ⟨p1, h1, h2⟩ := hst
      cases h2
      obtain ⟨h3, _, h4⟩ := hp.step hw hb hq h1
      exact ⟨h3, h4 hn hs⟩
  · rintro p ⟨hp, hs⟩ hst
    cases hq : p.2.queue with
    | nil => rw [spfaStep_nil hq] at hst; cases hst
    | cons x rest =>
      rw [spfaStep_cons hq] at hst
      obtain ⟨p', h1, _⟩ := forEach_done_of (body := spfaRelax w) (fun p => Inv g w s M p.1 ∧ Simple p.1) (g.outboundEdges x)
        (by
          rintro p ⟨hi, hs⟩ e he
          have he' := (hw.mem_outbound.1 he).1
          obtain ⟨r, hr⟩ := improvement_simple hw hb hi hs he'
          obtain ⟨i1, _, s1, _⟩ := hi.relax hw hb he' hr
          exact ⟨_, by rw [spfaRelax_eq, hr]; rfl, i1, s1 hn hs⟩) (p.1, ⟨rest⟩) ⟨hp.inv, hs⟩
      rw [h1] at hst
      cases hst

end ShortestPath
end GC
