/-
Properties C23, C57, C58, C59: command-line arguments.
-/
import Verif.Proofs.Args
import Verif.Proofs.Graph
namespace GC
open Text Args

/-! ### C23 -/

/-- C23: what the constraint options of gc-csp, all together, ask of a path. -/
theorem C23_csp_accepts (a : CspArgs) (sp : ScoredPath) :
    ((cspConstraints a).all fun c => c.checkComplete sp) = true ↔ CspAccepts a sp := by
  have hb := bounds_meaning a.minLength a.maxLength a.exactLength a.minScore a.maxScore a.exactScore sp
  simp only [List.all_eq_true, checkComplete_iff, cspConstraints, List.forall_mem_append, and_assoc]
  rw [hb]
  have hi : (∀ c ∈ ((a.include_.bind parseVertexIdList).map buildInclude).getD [], Satisfies sp c) ↔
      (∀ l vs, a.include_ = some l → ArgIds l vs → ∀ v ∈ vs, Visits sp.path v) := by
    rw [forall_getD_map, forall_bind]
    simp [parseVertexIdList_iff, buildInclude, Satisfies]
  have he : (∀ c ∈ ((a.exclude.bind parseVertexIdList).map buildExclude).getD [], Satisfies sp c) ↔
      (∀ l vs, a.exclude = some l → ArgIds l vs → ∀ v ∈ vs, ¬ Visits sp.path v) := by
    rw [forall_getD_map, forall_bind]
    simp [parseVertexIdList_iff, buildExclude, Satisfies]
  have ho : (∀ c ∈ ((a.ordered.bind parseVertexIdList).map buildOrdered).toList, Satisfies sp c) ↔
      (∀ l vs, a.ordered = some l → ArgIds l vs → InOrder vs sp.path) := by
    rw [forall_toList_map, forall_bind]
    simp [parseVertexIdList_iff, buildOrdered, Satisfies]
  have hc : (∀ c ∈ (optionOf a.includeCycle buildIncludeCycle).toList, Satisfies sp c) ↔
      (a.includeCycle = true → RepeatsVertex sp.path) := by
    cases a.includeCycle <;> simp [optionOf, buildIncludeCycle, Satisfies]
  have hn : (∀ c ∈ (optionOf a.noCycle buildNoCycle).toList, Satisfies sp c) ↔
      (a.noCycle = true → ¬ RepeatsVertex sp.path) := by
    cases a.noCycle <;> simp [optionOf, buildNoCycle, Satisfies]
  rw [hi, he, ho, hc, hn]
  simp only [CspAccepts, CspMeets, and_assoc]

/-- C20, C23: the constraints made from the options are simple ones, so the search with them prunes exactly (`C20_prunes_exactly`). -/
theorem C23_options_are_simple (a : CspArgs) (b : CycleArgs) :
    (∀ c ∈ cspConstraints a, Simple c) ∧ ∀ c ∈ cycleConstraints b, Simple c := by
  have hl : ∀ {α : Type} (o : Option α) (f : α → List Constraint), (∀ x, ∀ c ∈ f x, Simple c) → ∀ c ∈ (o.map f).getD [], Simple c := by
    intro α o f hf c hc
    cases o with
    | none => cases hc
    | some x => exact hf x c hc
  have ht : ∀ {α : Type} (o : Option α) (f : α → Constraint), (∀ x, Simple (f x)) → ∀ c ∈ (o.map f).toList, Simple c := by
    intro α o f hf c hc
    cases o with
    | none => cases hc
    | some x => simp at hc; subst hc; exact hf x
  have hi : ∀ x, ∀ c ∈ buildInclude x, Simple c := by
    intro x c hc; obtain ⟨v, _, rfl⟩ := List.mem_map.1 hc; exact .vertex v
  have he : ∀ x, ∀ c ∈ buildExclude x, Simple c := by
    intro x c hc; obtain ⟨v, _, rfl⟩ := List.mem_map.1 hc; exact .notVertex v
  have hie : ∀ x, ∀ c ∈ buildIncludeEdges x, Simple c := by
    intro x c hc; obtain ⟨v, _, rfl⟩ := List.mem_map.1 hc; exact .edge v
  have hee : ∀ x, ∀ c ∈ buildExcludeEdges x, Simple c := by
    intro x c hc; obtain ⟨v, _, rfl⟩ := List.mem_map.1 hc; exact .notEdge v
  have hel : ∀ x, ∀ c ∈ buildExactLength x, Simple c := by
    intro x c hc; simp [buildExactLength] at hc; rcases hc with rfl | rfl
    · exact .minLength x
    · exact .maxLength x
  have hes : ∀ x, ∀ c ∈ buildExactScore x, Simple c := by
    intro x c hc; simp [buildExactScore] at hc; rcases hc with rfl | rfl
    · exact .minScore x
    · exact .maxScore x
  constructor
  · intro c hc
    simp only [cspConstraints, List.mem_append] at hc
    rcases hc with (((((((((h | h) | h) | h) | h) | h) | h) | h) | h) | h) | h
    · exact hl _ _ hi c h
    · exact hl _ _ he c h
    · exact ht _ _ (fun x => .ordered x) c h
    · cases hb : a.includeCycle <;> rw [hb] at h <;> simp [optionOf] at h
      subst h; exact .cycle
    · cases hb : a.noCycle <;> rw [hb] at h <;> simp [optionOf] at h
      subst h; exact .notCycle
    · exact ht _ _ (fun x => .minLength x) c h
    · exact ht _ _ (fun x => .maxLength x) c h
    · exact hl _ _ hel c h
    · exact ht _ _ (fun x => .minScore x) c h
    · exact ht _ _ (fun x => by unfold buildMaxScore; exact .minScore x) c h
    · exact hl _ _ hes c h
  · intro c hc
    simp only [cycleConstraints, List.mem_append] at hc
    rcases hc with ((((((((h | h) | h) | h) | h) | h) | h) | h) | h) | h
    · exact hl _ _ hi c h
    · exact hl _ _ he c h
    · exact hl _ _ hie c h
    · exact hl _ _ hee c h
    · exact ht _ _ (fun x => .minLength x) c h
    · exact ht _ _ (fun x => .maxLength x) c h
    · exact hl _ _ hel c h
    · exact ht _ _ (fun x => .minScore x) c h
    · exact ht _ _ (fun x => by unfold buildMaxScore; exact .minScore x) c h
    · exact hl _ _ hes c h

/-- C23 (partial): for every combination of gc-csp options other than `max-score`, a path passes the final check of the search
exactly when it is as the help text says. Missing: `max-score`, see `C23_max_score_partial` and `C23_counterexample`. -/
theorem C23_csp_options_partial (a : CspArgs) (h : a.maxScore = none) (sp : ScoredPath) :
    ((cspConstraints a).all fun c => c.checkComplete sp) = true ↔ CspMeets a sp := by
  rw [C23_csp_accepts]
  simp [CspAccepts, h]

/-- C23: the same for the filter of gc-cycle. -/
theorem C23_cycle_accepts (a : CycleArgs) (sp : ScoredPath) :
    ((cycleConstraints a).all fun c => c.checkComplete sp) = true ↔ CycleAccepts a sp := by
  have hb := bounds_meaning a.minLength a.maxLength a.exactLength a.minScore a.maxScore a.exactScore sp
  simp only [List.all_eq_true, checkComplete_iff, cycleConstraints, List.forall_mem_append, and_assoc]
  rw [hb]
  have hi : (∀ c ∈ ((a.includeAll.bind parseVertexIdList).map buildInclude).getD [], Satisfies sp c) ↔
      (∀ l vs, a.includeAll = some l → ArgIds l vs → ∀ v ∈ vs, Visits sp.path v) := by
    rw [forall_getD_map, forall_bind]
    simp [parseVertexIdList_iff, buildInclude, Satisfies]
  have he : (∀ c ∈ ((a.excludeAll.bind parseVertexIdList).map buildExclude).getD [], Satisfies sp c) ↔
      (∀ l vs, a.excludeAll = some l → ArgIds l vs → ∀ v ∈ vs, ¬ Visits sp.path v) := by
    rw [forall_getD_map, forall_bind]
    simp [parseVertexIdList_iff, buildExclude, Satisfies]
  have hie : (∀ c ∈ ((a.includeAllEdges.bind parseEdgeList).map buildIncludeEdges).getD [], Satisfies sp c) ↔
      (∀ l es, a.includeAllEdges = some l → ArgEdges l es → ∀ e ∈ es, Traverses sp.path e) := by
    rw [forall_getD_map, forall_bind]
    simp [parseEdgeList_iff, buildIncludeEdges, Satisfies]
  have hee : (∀ c ∈ ((a.excludeAllEdges.bind parseEdgeList).map buildExcludeEdges).getD [], Satisfies sp c) ↔
      (∀ l es, a.excludeAllEdges = some l → ArgEdges l es → ∀ e ∈ es, ¬ Traverses sp.path e) := by
    rw [forall_getD_map, forall_bind]
    simp [parseEdgeList_iff, buildExcludeEdges, Satisfies]
  rw [hi, he, hie, hee]
  simp only [CycleAccepts, CycleMeets, and_assoc]

/-- C23 (partial): the same for the filter of gc-cycle. -/
theorem C23_cycle_options_partial (a : CycleArgs) (h : a.maxScore = none) (sp : ScoredPath) :
    ((cycleConstraints a).all fun c => c.checkComplete sp) = true ↔ CycleMeets a sp := by
  rw [C23_cycle_accepts]
  simp [CycleAccepts, h]

/-- C23 (partial): what `max-score` really does, together with any other options: it is a second minimum. -/
theorem C23_max_score_partial (a : CspArgs) (s : Text) (i : Int) (hs : a.maxScore = some s) (hi : ArgInt s i) (sp : ScoredPath) :
    ((cspConstraints a).all fun c => c.checkComplete sp) = true ↔ CspMeets { a with maxScore := none } sp ∧ i ≤ sp.score := by
  rw [← C23_csp_options_partial { a with maxScore := none } rfl]
  have hp : parseI64 s = some i := parseI64_iff.2 hi
  simp only [cspConstraints, hs, Option.bind_some, hp, Option.map_some, Option.toList_some, List.all_append, Option.bind_none,
    Option.map_none, Option.toList_none, List.all_nil, Bool.and_true, List.all_cons, buildMaxScore, Bool.and_eq_true,
    Constraint.checkComplete, decide_eq_true_eq, ge_iff_le]
  tauto

/-- `C23_max_score_partial` for `--max-score 5 --no-cycle`. -/
example : ((cspConstraints { maxScore := some ['5'], noCycle := true }).all fun c => c.checkComplete ⟨⟨[1, 2, 3]⟩, 2⟩) = false := by
  rw [Bool.eq_false_iff, ne_eq, C23_max_score_partial _ ['5'] 5 rfl (parseI64_iff.1 (by decide))]
  exact fun h => absurd h.2 (by decide)

/-- C23 is false: with `max-score 5` a path of score 7 is accepted and a path of score 3 is rejected. -/
theorem C23_counterexample :
    (∀ sp : ScoredPath, sp.score = 7 →
      ((cspConstraints { maxScore := some ['5'] }).all fun c => c.checkComplete sp) = true ∧ ¬ MeetsMaxScore (some ['5']) sp) ∧
    (∀ sp : ScoredPath, sp.score = 3 →
      ((cspConstraints { maxScore := some ['5'] }).all fun c => c.checkComplete sp) = false ∧ MeetsMaxScore (some ['5']) sp) := by
  have h5 : ArgInt ['5'] 5 := parseI64_iff.1 (by decide)
  have hc : cspConstraints { maxScore := some ['5'] } = [.MinScore 5] := by decide
  constructor
  · intro sp hs
    refine ⟨by simp [hc, Constraint.checkComplete, hs], ?_⟩
    intro h
    have := h _ _ rfl h5
    omega
  · intro sp hs
    refine ⟨by simp [hc, Constraint.checkComplete, hs], ?_⟩
    intro s i h hi
    cases h
    have e : parseI64 ['5'] = some i := parseI64_iff.2 hi
    have e5 : parseI64 ['5'] = some 5 := by decide
    rw [e5] at e
    cases e
    omega

example : cspConstraints { include_ := some [['1'], ['2']], noCycle := true, exactLength := some ['+', '4'], minScore := some ['-', '3'] } =
    [.ContainsVertex 1, .ContainsVertex 2, .Not .ContainsCycle, .MinLength 4, .MaxLength 4, .MinScore (-3)] := by decide
example : cycleConstraints { excludeAll := some [['1']], includeAllEdges := some [['1'], ['2'], ['2'], ['3']] } =
    [.Not (.ContainsVertex 1), .ContainsEdge ⟨1, 2⟩, .ContainsEdge ⟨2, 3⟩] := by decide

/-! ### C57 -/

/-- C57: `chain` gives the pairs of consecutive vertices, in order. -/
theorem C57_chain (vs : List VertexId) (h : vs ≠ []) :
    ∃ ps, chainFromVertices vs = .done ps ∧ ps.length + 1 = vs.length ∧
      ∀ (i : Nat) a b, ps[i]? = some (a, b) ↔ vs[i]? = some a ∧ vs[i + 1]? = some b := by
  have hl : 0 < vs.length := List.length_pos_iff.2 h
  refine ⟨(List.range (vs.length - 1)).map fun i => (vs.getD i 0, vs.getD (i + 1) 0), ?_, by simp; omega, ?_⟩
  · unfold chainFromVertices
    rw [if_neg (by omega)]
    apply pushAll_done
    intro i hi
    rw [List.mem_range] at hi
    rw [indexPair_done (by omega) (by omega)]
    rw [getD_of_lt _ _ (by omega), getD_of_lt _ _ (by omega)]
  · intro i a b
    by_cases hi : i < vs.length - 1
    · rw [List.getElem?_eq_getElem (by simpa using hi)]
      simp only [List.getElem_map, List.getElem_range]
      rw [getD_of_lt _ _ (by omega), getD_of_lt _ _ (by omega),
        List.getElem?_eq_getElem (show i < vs.length by omega), List.getElem?_eq_getElem (show i + 1 < vs.length by omega)]
      simp
    · rw [List.getElem?_eq_none (by simp; omega)]
      rw [List.getElem?_eq_none (show vs.length ≤ i + 1 by omega)]
      simp

/-- C57: `chain` of no vertices panics (gc-add never calls it: the option takes at least two values). -/
theorem C57_chain_empty : chainFromVertices [] = .panicked := rfl

/-- C57: `cycle` gives in addition the pair from the last to the first vertex; it fails on the empty list only. -/
theorem C57_cycle (vs : List VertexId) :
    (vs = [] → cycleFromVertices vs = none) ∧
    (vs ≠ [] → ∃ ps, cycleFromVertices vs = some (.done ps) ∧ ps.length = vs.length ∧
      ∀ (i : Nat) a b, ps[i]? = some (a, b) ↔ i < vs.length ∧ vs[i]? = some a ∧ vs[(i + 1) % vs.length]? = some b) := by
  refine ⟨fun h => by subst h; rfl, fun h => ?_⟩
  obtain ⟨v, vs, rfl⟩ := List.exists_cons_of_ne_nil h
  obtain ⟨ps, h1, h2, h3⟩ := C57_chain (v :: vs ++ [v]) (by simp)
  refine ⟨ps, by simp [cycleFromVertices]; simpa using h1, by simpa using h2, ?_⟩
  intro i a b
  rw [h3]
  by_cases hi : i < (v :: vs).length
  · rw [List.getElem?_append_left hi]
    simp only [hi, true_and]
    by_cases hi' : i + 1 < (v :: vs).length
    · rw [List.getElem?_append_left hi', Nat.mod_eq_of_lt hi']
    · have : i + 1 = (v :: vs).length := by omega
      rw [this, Nat.mod_self, List.getElem?_append_right (Nat.le_refl _)]
      simp
  · simp only [hi, false_and, iff_false, not_and]
    intro _
    rw [List.getElem?_eq_none (by simp at hi ⊢; omega)]
    simp

/-- C57: `star` gives the pairs from the first vertex to each other position, in order. -/
theorem C57_star (vs : List VertexId) :
    ∃ ps, starFromVertices vs = .done ps ∧ ps.length = vs.length - 1 ∧
      ∀ (i : Nat) a b, ps[i]? = some (a, b) ↔ vs[0]? = some a ∧ vs[i + 1]? = some b := by
  refine ⟨(List.range' 1 (vs.length - 1)).map fun i => (vs.getD 0 0, vs.getD i 0), ?_, by simp, ?_⟩
  · apply pushAll_done
    intro i hi
    rw [List.mem_range'_1] at hi
    rw [indexPair_done (by omega) (by omega)]
    rw [getD_of_lt _ _ (by omega), getD_of_lt _ _ (by omega)]
  · intro i a b
    by_cases hi : i < vs.length - 1
    · rw [List.getElem?_eq_getElem (by simpa using hi)]
      simp only [List.getElem_map, List.getElem_range', Nat.one_mul]
      rw [getD_of_lt _ _ (by omega), getD_of_lt _ _ (by omega),
        List.getElem?_eq_getElem (show 0 < vs.length by omega), List.getElem?_eq_getElem (show i + 1 < vs.length by omega)]
      simp [Nat.add_comm]
    · rw [List.getElem?_eq_none (by simp; omega)]
      rw [List.getElem?_eq_none (show vs.length ≤ i + 1 by omega)]
      simp

/-- C57: `clique` gives exactly the pairs of vertices at two different positions, both directions. -/
theorem C57_clique (vs : List VertexId) :
    ∃ ps, cliqueFromVertices vs = .done ps ∧
      ∀ a b, (a, b) ∈ ps ↔ ∃ i j : Nat, i ≠ j ∧ vs[i]? = some a ∧ vs[j]? = some b := by
  have hm : ∀ p, p ∈ cliqueIndices vs.length ↔ p.1 < vs.length ∧ p.2 < vs.length ∧ p.1 ≠ p.2 := by
    intro p
    unfold cliqueIndices
    simp only [List.mem_flatMap, List.mem_range]
    constructor
    · rintro ⟨i, hi, j, hj, h⟩
      split at h
      · rw [List.mem_singleton] at h; subst h; exact ⟨hi, hj, by assumption⟩
      · cases h
    · rintro ⟨h1, h2, h3⟩
      exact ⟨p.1, h1, p.2, h2, by rw [if_pos h3]; simp⟩
  refine ⟨(cliqueIndices vs.length).map fun p => (vs.getD p.1 0, vs.getD p.2 0), ?_, ?_⟩
  · apply pushAll_done
    intro p hp
    obtain ⟨h1, h2, _⟩ := (hm p).1 hp
    rw [indexPair_done h1 h2, getD_of_lt _ _ h1, getD_of_lt _ _ h2]
  · intro a b
    simp only [List.mem_map, hm, Prod.mk.injEq]
    constructor
    · rintro ⟨⟨i, j⟩, ⟨h1, h2, h3⟩, rfl, rfl⟩
      refine ⟨i, j, h3, ?_, ?_⟩
      · rw [getD_of_lt _ _ h1, List.getElem?_eq_getElem h1]
      · rw [getD_of_lt _ _ h2, List.getElem?_eq_getElem h2]
    · rintro ⟨i, j, h3, h1, h2⟩
      obtain ⟨hi, h1⟩ := List.getElem?_eq_some_iff.1 h1
      obtain ⟨hj, h2⟩ := List.getElem?_eq_some_iff.1 h2
      exact ⟨(i, j), ⟨hi, hj, h3⟩, by rw [getD_of_lt _ _ hi, h1], by rw [getD_of_lt _ _ hj, h2]⟩

/-- C57: `reverse` swaps every pair, and without it the pairs are unchanged. -/
theorem C57_reverse (ps : List (VertexId × VertexId)) :
    reverseIfNeeded false ps = ps ∧
    ∀ (i : Nat) a b, (reverseIfNeeded true ps)[i]? = some (a, b) ↔ ps[i]? = some (b, a) := by
  refine ⟨rfl, fun i a b => ?_⟩
  simp only [reverseIfNeeded, if_true, List.getElem?_map, Option.map_eq_some_iff, Prod.mk.injEq, Prod.exists]
  constructor
  · rintro ⟨x, y, h, rfl, rfl⟩; exact h
  · intro h; exact ⟨b, a, h, rfl, rfl⟩

example : cliqueFromVertices [1, 2, 3] = .done [(1, 2), (1, 3), (2, 1), (2, 3), (3, 1), (3, 2)] := by decide
example : cycleFromVertices [1, 2, 3] = some (.done [(1, 2), (2, 3), (3, 1)]) := by decide
example : starFromVertices [1, 2, 3] = .done [(1, 2), (1, 3)] := by decide

/-! ### C58 -/

/-- C58: a list of ids is accepted exactly when every item is a `u64` literal; the values are returned in order. -/
theorem C58_id_list (l : List Text) (vs : List VertexId) : parseVertexIdList l = some vs ↔ ArgIds l vs := parseVertexIdList_iff

/-- C58: an edge list is accepted exactly when it consists of pairs of ids, in order. -/
theorem C58_edge_list (l : List Text) (es : List Edge) : parseEdgeList l = some es ↔ ArgEdges l es := parseEdgeList_iff

/-- C58: pairing of ids: only lists of even length, item `k` is made of the ids at positions `2k` and `2k+1`. -/
theorem C58_pairs (vs : List VertexId) :
    (asVertexTuple vs = none ↔ vs.length % 2 = 1) ∧
    ∀ ps, asVertexTuple vs = some ps → 2 * ps.length = vs.length ∧
      ∀ (k : Nat) a b, ps[k]? = some (a, b) ↔ vs[2 * k]? = some a ∧ vs[2 * k + 1]? = some b := by
  have hlen : ∀ n (vs : List VertexId), vs.length = n → n % 2 = 0 → 2 * (pairUp vs).length = n := by
    intro n
    induction n using Nat.strongRecOn with
    | _ n ih =>
      intro vs hl he
      match vs, hl with
      | [], hl => simpa [pairUp] using hl
      | [a], hl => simp at hl; omega
      | a :: b :: vs, hl =>
        simp only [List.length_cons] at hl
        have := ih (n - 2) (by omega) vs (by omega) (by omega)
        simp only [pairUp, List.length_cons]
        omega
  unfold asVertexTuple
  constructor
  · split <;> simp <;> omega
  · intro ps h
    split at h
    · rename_i he
      cases h
      exact ⟨hlen _ vs rfl he, getElem?_pairUp vs⟩
    · cases h

/-- C58: the confirmation prompt accepts exactly `yes` and `y`, surrounded by white space. -/
theorem C58_confirmation (answer : Text) :
    confirmationYesNo answer = true ↔
      ∃ w1 w2, (∀ c ∈ w1, White c) ∧ (∀ c ∈ w2, White c) ∧
        (answer = w1 ++ ['y', 'e', 's'] ++ w2 ∨ answer = w1 ++ ['y'] ++ w2) := by
  simp only [← isWhite_all]
  have hy : ∀ c ∈ ['y', 'e', 's'], isWhite c = false := by decide
  have trim_eq : ∀ (w1 w2 t : Text), (∀ c ∈ w1, isWhite c = true) → (∀ c ∈ w2, isWhite c = true) → t ≠ [] →
      (∀ c ∈ t, isWhite c = false) → trim (w1 ++ t ++ w2) = t := by
    intro w1 w2 t h1 h2 hne ht
    unfold trim
    have hne' : t ++ w2 ≠ [] := by simp [hne]
    have e1 : (w1 ++ t ++ w2).dropWhile isWhite = t ++ w2 := by
      rw [List.append_assoc]
      refine (takeWhile_append_of_neg h1 ?_).2
      intro x hx
      cases t with
      | nil => exact absurd rfl hne
      | cons c t => simp at hx; subst hx; exact ht _ (by simp)
    rw [e1, List.reverse_append]
    have e2 : (w2.reverse ++ t.reverse).dropWhile isWhite = t.reverse := by
      refine (takeWhile_append_of_neg (fun c hc => h2 c (by simpa using hc)) ?_).2
      intro x hx
      exact ht x (by rw [List.head?_reverse] at hx; exact List.mem_of_getLast? hx)
    rw [e2, List.reverse_reverse]
  have trim_split : ∀ t : Text, ∃ w1 w2, (∀ c ∈ w1, isWhite c = true) ∧ (∀ c ∈ w2, isWhite c = true) ∧
      t = w1 ++ trim t ++ w2 := by
    intro t
    refine ⟨t.takeWhile isWhite, ((t.dropWhile isWhite).reverse.takeWhile isWhite).reverse, all_takeWhile _ _, ?_, ?_⟩
    · intro c hc; exact all_takeWhile _ _ c (by simpa using hc)
    · unfold trim
      rw [List.append_assoc, ← List.reverse_append, List.takeWhile_append_dropWhile, List.reverse_reverse,
        List.takeWhile_append_dropWhile]
  unfold confirmationYesNo
  simp only [Bool.or_eq_true, decide_eq_true_eq]
  constructor
  · intro h
    obtain ⟨w1, w2, h1, h2, he⟩ := trim_split answer
    refine ⟨w1, w2, h1, h2, ?_⟩
    rcases h with h | h
    · rw [h] at he; exact .inl he
    · rw [h] at he; exact .inr he
  · rintro ⟨w1, w2, h1, h2, rfl | rfl⟩
    · exact .inl (trim_eq w1 w2 _ h1 h2 (by simp) hy)
    · exact .inr (trim_eq w1 w2 _ h1 h2 (by simp) (by decide))

example : parseVertexIdList [['1', '2'], ['+', '0', '7']] = some [12, 7] := by decide
example : parseVertexIdList [['1', '2'], ['-', '7']] = none := by decide
example : confirmationYesNo [' ', 'y', 'e', 's', '\n'] = true := by decide

/-! ### C59 -/

/-- C59 (partial): which constraint options of gc-csp take effect: an option contributes nothing exactly when it is not given, or
its text is not valid. Missing: the claim that the second case is rejected, which is false (`C59_counterexample`). -/
theorem C59_dropped_exactly_when_invalid_partial (a : CspArgs) (h : a.includeCycle = false) (h' : a.noCycle = false) :
    cspConstraints a = [] ↔
      (∀ l vs, a.include_ = some l → ArgIds l vs → vs = []) ∧ (∀ l vs, a.exclude = some l → ArgIds l vs → vs = []) ∧
      (∀ l, a.ordered = some l → ∀ vs, ¬ ArgIds l vs) ∧
      (∀ s, a.minLength = some s → ∀ n, ¬ ArgNat s n) ∧ (∀ s, a.maxLength = some s → ∀ n, ¬ ArgNat s n) ∧
      (∀ s, a.exactLength = some s → ∀ n, ¬ ArgNat s n) ∧ (∀ s, a.minScore = some s → ∀ n, ¬ ArgInt s n) ∧
      (∀ s, a.maxScore = some s → ∀ n, ¬ ArgInt s n) ∧ (∀ s, a.exactScore = some s → ∀ n, ¬ ArgInt s n) := by
  have hlist : ∀ {α : Type} (o : Option (List Text)) (f : List VertexId → List α) (_ : ∀ l, f l = [] ↔ l = []),
      ((o.bind parseVertexIdList).map f).getD [] = [] ↔ ∀ l vs, o = some l → ArgIds l vs → vs = [] := by
    intro α o f hf
    simp only [← parseVertexIdList_iff]
    cases o with
    | none => simp
    | some l =>
      simp only [Option.bind_some, Option.some.injEq]
      constructor
      · rintro hh _ vs rfl hp
        rw [hp] at hh
        exact (hf vs).1 (by simpa using hh)
      · intro hh
        cases hp : parseVertexIdList l with
        | none => rfl
        | some vs => simpa using (hf vs).2 (hh l vs rfl hp)
  have hopt : ∀ {α β : Type} (o : Option α) (p : α → Option β), o.bind p = none ↔ ∀ s, o = some s → ∀ n, ¬ p s = some n := by
    intro α β o p
    cases o with
    | none => simp
    | some s => simp [Option.eq_none_iff_forall_ne_some]
  have hto : ∀ {α β : Type} (o : Option α) (f : α → β), (o.map f).toList = [] ↔ o = none := by
    intro α β o f; cases o <;> simp
  have hget : ∀ {α β : Type} (o : Option α) (f : α → List β), (∀ x, f x ≠ []) → ((o.map f).getD [] = [] ↔ o = none) := by
    intro α β o f hf; cases o <;> simp [hf]
  unfold cspConstraints
  simp only [List.append_eq_nil_iff, and_assoc, h, h', optionOf, Bool.false_eq_true, if_false, Option.toList_none, true_and]
  rw [hlist a.include_ buildInclude (by simp [buildInclude]), hlist a.exclude buildExclude (by simp [buildExclude]),
    hto, hto, hto, hget _ _ (by simp [buildExactLength]), hto, hto, hget _ _ (by simp [buildExactScore])]
  simp only [hopt, parseVertexIdList_iff, parseUsize_iff, parseI64_iff]

/-- `C59_dropped_exactly_when_invalid_partial` for `--exclude 1 --max-length x`: not everything is dropped, as `1` is an id. -/
example : cspConstraints { exclude := some [['1']], maxLength := some ['x'] } ≠ [] := by
  rw [ne_eq, C59_dropped_exactly_when_invalid_partial _ rfl rfl]
  exact fun h => by cases h.2.1 [['1']] [1] rfl (parseVertexIdList_iff.1 (by decide))

/-- C59 is false: `--include 1 x`, `--max-length -1` and `--exclude-all-edges 1 2 3` are silently ignored, so that every path or
cycle is accepted. -/
theorem C59_counterexample :
    cspConstraints { include_ := some [['1'], ['x']], maxLength := some ['-', '1'] } = [] ∧
    cycleConstraints { excludeAllEdges := some [['1'], ['2'], ['3']] } = [] := by
  constructor <;> decide

end GC
