/-
C143: how constraints are written.
-/
import Verif.Spec.Rewrite
import Verif.Props.Options
import Verif.Props.Constraint
import Verif.Props.CycleReport
namespace GC
open DirectedGraph

theorem Rewrites.checks {a b : Constraint} (h : Rewrites a b) (sp : ScoredPath) :
    a.checkPartial sp = b.checkPartial sp ∧ a.checkComplete sp = b.checkComplete sp := by
  induction h with
  | refl => exact ⟨rfl, rfl⟩
  | symm _ ih => exact ⟨ih.1.symm, ih.2.symm⟩
  | trans _ _ ih ih' => exact ⟨ih.1.trans ih'.1, ih.2.trans ih'.2⟩
  | or _ _ ih ih' => simp only [Constraint.checkPartial, Constraint.checkComplete, ih.1, ih.2, ih'.1, ih'.2, and_self]
  | and _ _ ih ih' => simp only [Constraint.checkPartial, Constraint.checkComplete, ih.1, ih.2, ih'.1, ih'.2, and_self]
  | xor _ _ ih ih' => simp only [Constraint.checkPartial, Constraint.checkComplete, ih.1, ih.2, ih'.1, ih'.2, and_self]
  | or_comm a b | and_comm a b | xor_comm a b =>
    simp only [Constraint.checkPartial, Constraint.checkComplete]
    cases a.checkPartial sp <;> cases b.checkPartial sp <;> cases a.checkComplete sp <;> cases b.checkComplete sp <;> decide
  | or_same a | and_same a =>
    simp only [Constraint.checkPartial, Constraint.checkComplete]
    cases a.checkPartial sp <;> cases a.checkComplete sp <;> decide
  | or_assoc a b c | and_assoc a b c | xor_assoc a b c | and_or a b c | or_and a b c | and_xor a b c =>
    simp only [Constraint.checkPartial, Constraint.checkComplete]
    constructor
    · cases a.checkPartial sp <;> cases b.checkPartial sp <;> cases c.checkPartial sp <;> decide
    · cases a.checkComplete sp <;> cases b.checkComplete sp <;> cases c.checkComplete sp <;> decide

theorem all_congr_mem {α : Type} {l l' : List α} (h : ∀ a, a ∈ l ↔ a ∈ l') (p : α → Bool) : l.all p = l'.all p := by
  rw [Bool.eq_iff_iff, List.all_eq_true, List.all_eq_true]
  simp only [h]

theorem RewritesAll.checks {cs cs' : List Constraint} (h : RewritesAll cs cs') (sp : ScoredPath) :
    cs.all (fun c => c.checkPartial sp) = cs'.all (fun c => c.checkPartial sp) ∧
    cs.all (fun c => c.checkComplete sp) = cs'.all (fun c => c.checkComplete sp) := by
  induction h with
  | same h => exact ⟨all_congr_mem h _, all_congr_mem h _⟩
  | symm _ ih => exact ⟨ih.1.symm, ih.2.symm⟩
  | trans _ _ ih ih' => exact ⟨ih.1.trans ih'.1, ih.2.trans ih'.2⟩
  | split a b cs => simp only [List.all_cons, Constraint.checkPartial, Constraint.checkComplete, Bool.and_assoc, and_self]
  | head cs h => simp only [List.all_cons, (h.checks sp).1, (h.checks sp).2, and_self]

/-- C143 (partial): library searches with the same constraints, written in two ways, do the same: they return the same and panic alike, so they also run on
alike. Missing: other ways to write below `Not`, where it is false (`C143_counterexample`). -/
theorem C143_constrained_search_partial (H : ScoredHeap) (g : DirectedGraph) (cost heuristic : ScoreFn) (start end_ : VertexId) (cs cs' : List Constraint)
    (h : RewritesAll cs cs') :
    (∀ r, Returns (AStar.constrainedShortestPath H g cost heuristic start end_ cs) r ↔
      Returns (AStar.constrainedShortestPath H g cost heuristic start end_ cs') r) ∧
    (Panics (AStar.constrainedShortestPath H g cost heuristic start end_ cs) ↔
      Panics (AStar.constrainedShortestPath H g cost heuristic start end_ cs')) := by
  have e : AStar.constrainedShortestPath H g cost heuristic start end_ cs = AStar.constrainedShortestPath H g cost heuristic start end_ cs' := by
    have h1 : AStar.isSolution end_ cs = AStar.isSolution end_ cs' := by
      funext sp
      unfold AStar.isSolution
      rw [(h.checks sp).2]
    have h2 : ConstrainedBestFirstIter.next (H := H) g (AStar.sumScore cost heuristic) cs =
        ConstrainedBestFirstIter.next g (AStar.sumScore cost heuristic) cs' := by
      funext s
      have hv : ∀ wp, ConstrainedBestFirstIter.visit (H := H) g (AStar.sumScore cost heuristic) cs wp =
          ConstrainedBestFirstIter.visit g (AStar.sumScore cost heuristic) cs' wp := by
        intro wp
        funext s v
        unfold ConstrainedBestFirstIter.visit ConstrainedBestFirstIter.checkAllPartial
        simp only [(h.checks _).1]
      unfold ConstrainedBestFirstIter.next
      simp only [hv]
    unfold AStar.constrainedShortestPath
    rw [h1, h2]
  rw [e]
  exact ⟨fun _ => .rfl, .rfl⟩

/-- Example: a choice of bounds, written in two ways, with a repetition. -/
theorem exRewrites : RewritesAll [.Not .ContainsCycle, .Or (.And (.ContainsVertex 2) (.MaxLength 3)) (.And (.ContainsVertex 2) (.MaxScore 7))]
    [.ContainsVertex 2, .Or (.MaxScore 7) (.MaxLength 3), .Not .ContainsCycle, .Not .ContainsCycle] :=
  .trans (.same (cs' := [.Or (.And (.ContainsVertex 2) (.MaxLength 3)) (.And (.ContainsVertex 2) (.MaxScore 7)), .Not .ContainsCycle])
      fun c => by simp only [List.mem_cons, List.not_mem_nil, or_false]; exact Or.comm)
    (.trans (.head _ (.symm (.and_or _ _ _))) (.trans (.head _ (.and (.refl _) (.or_comm _ _))) (.trans (.split _ _ _)
      (.same fun c => by simp only [List.mem_cons, List.not_mem_nil, or_false, or_self]))))

example : Returns (AStar.gcCsp exHeap exIterGraph 1 4
    [.Not .ContainsCycle, .Or (.And (.ContainsVertex 2) (.MaxLength 3)) (.And (.ContainsVertex 2) (.MaxScore 7))]) (some ⟨⟨[1, 2, 4]⟩, 2⟩) :=
  ((C143_constrained_search_partial exHeap exIterGraph AStar.oneWeightedEdge AStar.zeroHeuristic 1 4 _ _ exRewrites).1 _).2
    (Mono.returns (n := 12) (Mono.bind (Mono.lift _) fun s => Mono.find ConstrainedBestFirstIter.mono_next _ _) (by decide +kernel))

/-- gc-cycle lets the same cycles through whenever the constraints mean the same, also below `Not`. -/
theorem C143_cycle_filter (c : Cycle) (cs cs' : List Constraint) (h : ∀ sp, (∀ c ∈ cs, Satisfies sp c) ↔ ∀ c ∈ cs', Satisfies sp c) :
    GcCycle.check c cs = GcCycle.check c cs' := by
  unfold GcCycle.check
  rw [Bool.eq_iff_iff, List.all_eq_true, List.all_eq_true]
  simp only [C19_check_complete_meaning]
  exact h _

example : (∀ sp, (∀ c ∈ [Constraint.Not (.Or (.ContainsVertex 2) (.MinLength 4))], Satisfies sp c) ↔
      ∀ c ∈ [Constraint.Not (.ContainsVertex 2), .Not (.MinLength 4)], Satisfies sp c) ∧
    GcCycle.check ⟨[1, 3]⟩ [.Not (.Or (.ContainsVertex 2) (.MinLength 4))] = true ∧
    GcCycle.check ⟨[1, 2]⟩ [.Not (.Or (.ContainsVertex 2) (.MinLength 4))] = false := by
  refine ⟨fun sp => ?_, by decide, by decide⟩
  simp only [List.mem_cons, List.not_mem_nil, or_false, forall_eq, forall_eq_or_imp, Satisfies, not_or]

theorem atMostOne_iff (cs : List Constraint) (q : Constraint → Prop) : AtMostOne cs q ↔ cs.Pairwise fun c d => ¬ (q c ∧ q d) := by
  rw [List.pairwise_iff_getElem]
  constructor
  · intro h i j hi hj hij hq
    exact absurd (h i j _ _ (List.getElem?_eq_getElem hi) (List.getElem?_eq_getElem hj) hq.1 hq.2) (Nat.ne_of_lt hij)
  · intro h i j c d hc hd h1 h2
    obtain ⟨hi, rfl⟩ := List.getElem?_eq_some_iff.1 hc
    obtain ⟨hj, rfl⟩ := List.getElem?_eq_some_iff.1 hd
    rcases Nat.lt_trichotomy i j with hlt | he | hlt
    · exact absurd ⟨h1, h2⟩ (h i j hi hj hlt)
    · exact he
    · exact absurd ⟨h2, h1⟩ (h j i hj hi hlt)

theorem atMostOne_perm {cs cs' : List Constraint} (h : cs.Perm cs') (q : Constraint → Prop) : AtMostOne cs q ↔ AtMostOne cs' q := by
  rw [atMostOne_iff, atMostOne_iff]
  exact h.pairwise_iff fun hn hq => hn ⟨hq.2, hq.1⟩

/-- `validate` accepts constraints in any order. -/
theorem C143_validate_order (cs cs' : List Constraint) (h : cs.Perm cs') : Checker.validate cs = .ok () ↔ Checker.validate cs' = .ok () := by
  rw [C22_validate_accepts_iff, C22_validate_accepts_iff]
  unfold Acceptable
  simp only [h.mem_iff, atMostOne_perm h]

example : Checker.validate [.ContainsCycle, .MaxLength 5, .MinLength 2, .Not (.ContainsVertex 4)] = .ok () ∧
    Checker.validate [.Not (.ContainsVertex 4), .MinLength 2, .ContainsCycle, .MaxLength 5] = .ok () := by decide

/-- `validate` does not look into `And`: a contradiction is found if it is written as two constraints, and not found if it is written as one. -/
theorem C143_validate_counterexample :
    RewritesAll [.And (.MinLength 4) (.MaxLength 3), .ContainsCycle] [.MinLength 4, .MaxLength 3, .ContainsCycle] ∧
    Checker.validate [.And (.MinLength 4) (.MaxLength 3), .ContainsCycle] = .ok () ∧
    Checker.validate [.MinLength 4, .MaxLength 3, .ContainsCycle] = .error (.minMaxLength 4 3) :=
  ⟨.split _ _ _, by decide, by decide⟩

/-- C143 is false below `Not`: a double negation means the same, but it is not looked at while walks are extended. On 1→2→1 with the isolated vertex 3, the
search for a walk of at most 2 vertices from 1 to 3 answers that there is none; with the double negation it never ends. -/
theorem C143_counterexample : let g := GraphCommand.applyCommands [.AddEdge 1 2, .AddEdge 2 1, .AddVertex 3] .new
    Built g ∧ (∀ sp, Satisfies sp (.MaxLength 2) ↔ Satisfies sp (.Not (.Not (.MaxLength 2)))) ∧
    ∀ H, Returns (AStar.gcCsp H g 1 3 [.MaxLength 2]) none ∧ ∀ r, ¬ Returns (AStar.gcCsp H g 1 3 [.Not (.Not (.MaxLength 2))]) r := by
  intro g
  obtain ⟨hb, hno, hn⟩ := C37_counterexample
  refine ⟨hb, fun sp => by simp only [Satisfies]; exact not_not.symm, fun H => ⟨?_, fun r hr => ?_⟩⟩
  · obtain ⟨r, h1, h2⟩ := C37_bounded_constraints_partial H g hb 1 3 [.MaxLength 2] (by decide) (.inl ⟨2, by decide, by simp⟩)
    rw [h2.2 fun ⟨q, hq, _⟩ => hno q hq] at h1
    exact h1
  · cases r with
    | some sp => exact hno sp.path (C35_constrained_valid H g hb _ _ 1 3 _ sp hr).1
    | none =>
      refine hn H none ((C37_not_reachable_iff H g hb 1 3 []).2 ⟨fun ⟨q, hq, _⟩ => hno q hq, fun sp u v hu => ?_⟩)
      refine ((C37_not_reachable_iff H g hb 1 3 _).1 hr).2 sp u v ⟨hu.1, hu.2.1, fun q hq hl => ?_⟩
      obtain ⟨s, h1, _⟩ := hu.2.2 q hq hl
      refine ⟨s, h1, fun c hc => ?_⟩
      rw [List.mem_singleton.1 hc]
      trivial

end GC
