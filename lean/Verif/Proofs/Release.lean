/- The build without overflow checks refines the build with them. -/
import Verif.Model.Release
import Verif.Spec.Release
import Verif.Proofs.Prog
namespace GC
open Prog

variable {α β σ : Type}

/-- `r'` is what `r` is, unless `r` is a panic. -/
def Run.Ref (r r' : Run α) : Prop := r = .panicked ∨ r' = r

theorem Run.Ref.refl (r : Run α) : Run.Ref r r := .inr rfl

theorem Run.Ref.bind {r r' : Run α} {f f' : α → Run β} (h : Run.Ref r r') (hf : ∀ a, Run.Ref (f a) (f' a)) :
    Run.Ref (r.bind f) (r'.bind f') := by
  rcases h with rfl | rfl
  · exact .inl rfl
  · cases r' with
    | running => exact .inr rfl
    | panicked => exact .inl rfl
    | done a => exact hf a

/-- The same for programs, for every amount of fuel. -/
def Prog.Ref (p p' : Prog α) : Prop := ∀ n, Run.Ref (p n) (p' n)

theorem Prog.Ref.refl (p : Prog α) : Prog.Ref p p := fun _ => .refl _

theorem Prog.Ref.lift {r r' : Run α} (h : Run.Ref r r') : Prog.Ref (Prog.lift r) (Prog.lift r') := fun _ => h

theorem Prog.Ref.bind {p p' : Prog α} {f f' : α → Prog β} (h : Prog.Ref p p') (hf : ∀ a, Prog.Ref (f a) (f' a)) :
    Prog.Ref (Prog.bind p f) (Prog.bind p' f') := fun n => (h n).bind fun a => hf a n

theorem loopAux_ref {step step' : σ → Prog (σ ⊕ β)} (h : ∀ s, Prog.Ref (step s) (step' s)) (fuel k : Nat) (s : σ) :
    Run.Ref (loopAux step fuel k s) (loopAux step' fuel k s) := by
  induction k generalizing s with
  | zero => exact .refl _
  | succ k ih =>
    unfold loopAux
    rcases h s fuel with e | e
    · rw [e]; exact .inl rfl
    · rw [e]
      rcases step s fuel with _ | _ | ⟨s' | b⟩
      · exact .inr rfl
      · exact .inl rfl
      · exact ih s'
      · exact .inr rfl

theorem Prog.Ref.loop {step step' : σ → Prog (σ ⊕ β)} (h : ∀ s, Prog.Ref (step s) (step' s)) (s : σ) :
    Prog.Ref (Prog.loop step s) (Prog.loop step' s) := fun n => loopAux_ref h n n s

theorem Prog.Ref.find {next next' : σ → Prog (Option (α × σ))} (h : ∀ s, Prog.Ref (next s) (next' s)) (p : α → Bool) (s : σ) :
    Prog.Ref (Prog.find p next s) (Prog.find p next' s) :=
  .loop (fun s => .bind (h s) fun r => by
    rcases r with _ | ⟨x, s'⟩ <;> exact .refl _) s

theorem Run.Ref.forEach {body body' : σ → α → Run σ} (h : ∀ s a, Run.Ref (body s a) (body' s a)) (s : σ) (l : List α) :
    Run.Ref (Run.forEach body s l) (Run.forEach body' s l) := by
  induction l generalizing s with
  | nil => exact .refl _
  | cons a l ih => exact (h s a).bind fun s' => ih s'

theorem Prog.Ref.same {p p' : Prog α} (h : Prog.Ref p p') : SameUnlessPanic p p' := by
  refine ⟨fun a ⟨n, hn⟩ => ⟨n, fun m hm => ?_⟩, fun hd n => ?_⟩
  · rcases h m with e | e
    · rw [hn m hm] at e; cases e
    · rw [e, hn m hm]
  · rcases h n with e | e
    · rw [hd n] at e; cases e
    · rw [e, hd n]

namespace Release
open TopoSort ShortestPath LongestPath MaxFlow

theorem wrapI64_of_range {x : Int} (h1 : -2 ^ 63 ≤ x) (h2 : x < 2 ^ 63) : wrapI64 x = x := by
  unfold wrapI64
  rw [Int.bmod_eq_of_le] <;> omega

theorem addI64_ref (a b : Int) : Run.Ref (GC.addI64 a b) (addI64 a b) := by
  unfold GC.addI64 addI64
  split
  · rename_i h; exact .inr (by rw [wrapI64_of_range h.1 h.2])
  · exact .inl rfl

theorem addU64_ref (a b : Nat) : Run.Ref (GC.addU64 a b) (addU64 a b) := by
  unfold GC.addU64 addU64
  split
  · rename_i h; exact .inr (by rw [Nat.mod_eq_of_lt h])
  · exact .inl rfl

theorem subU64_ref (a b : Nat) : Run.Ref (GC.subU64 a b) (subU64 a b) := by
  unfold GC.subU64 subU64
  split
  · exact .inr rfl
  · exact .inl rfl

theorem negI64_ref (x : Int) : Run.Ref (LongestPath.negI64 x) (negI64 x) := by
  unfold LongestPath.negI64 negI64
  split
  · rename_i h
    refine .inr ?_
    rw [if_neg (by omega)]
  · exact .inl rfl

theorem sumScore_ref (cost heuristic : ScoreFn) (g : DirectedGraph) (p : Path) :
    Run.Ref (AStar.sumScore cost heuristic g p) (sumScore cost heuristic g p) :=
  (Run.Ref.refl _).bind fun _ => (Run.Ref.refl _).bind fun _ => addI64_ref _ _

theorem bestFirst_next_ref {H : ScoredHeap} {g : DirectedGraph} {f f' : ScoreFn} (h : ∀ p, Run.Ref (f g p) (f' g p)) (s : BestFirstIter H) :
    Prog.Ref (BestFirstIter.next g f s) (BestFirstIter.next g f' s) := by
  unfold BestFirstIter.next
  split
  · exact .refl _
  · refine .lift (.bind (.refl _) fun vid => .bind (.forEach (fun s a => ?_) _ _) fun _ => .refl _)
    unfold BestFirstIter.visit
    split
    · exact .refl _
    · exact (h _).bind fun _ => .refl _

theorem constrained_next_ref {H : ScoredHeap} {g : DirectedGraph} {f f' : ScoreFn} (h : ∀ p, Run.Ref (f g p) (f' g p)) (cs : List Constraint)
    (s : ConstrainedBestFirstIter H) :
    Prog.Ref (ConstrainedBestFirstIter.next g f cs s) (ConstrainedBestFirstIter.next g f' cs s) := by
  unfold ConstrainedBestFirstIter.next
  split
  · exact .refl _
  · refine .lift (.bind (.refl _) fun vid => .bind (.forEach (fun s a => ?_) _ _) fun _ => .refl _)
    exact (h _).bind fun _ => .refl _

theorem shortestPath_ref (H : ScoredHeap) (g : DirectedGraph) (cost heuristic : ScoreFn) (s t : VertexId) :
    Prog.Ref (AStar.shortestPath H g cost heuristic s t) (shortestPath H g cost heuristic s t) :=
  .bind (.lift (.bind (sumScore_ref _ _ _ _) fun _ => .refl _)) fun _ => .find (fun _ => bestFirst_next_ref (sumScore_ref _ _ _) _) _ _

theorem constrainedShortestPath_ref (H : ScoredHeap) (g : DirectedGraph) (cost heuristic : ScoreFn) (s t : VertexId) (cs : List Constraint) :
    Prog.Ref (AStar.constrainedShortestPath H g cost heuristic s t cs) (constrainedShortestPath H g cost heuristic s t cs) :=
  .bind (.lift (.bind (sumScore_ref _ _ _ _) fun _ => .refl _)) fun _ => .find (fun _ => constrained_next_ref (sumScore_ref _ _ _) _ _) _ _

theorem dagShortestPathsWith_ref {f f' : PartialWeightFn} (hf : ∀ e, Run.Ref (f e) (f' e)) (dag : DAG) (s : VertexId) :
    Prog.Ref (ShortestPath.dagShortestPathsWith dag f s) (dagShortestPathsWith dag f' s) := by
  refine .bind (.refl _) fun order => .bind (.refl _) fun o => .lift (.forEach (fun sc v => .forEach (fun sc e => ?_) _ _) _ _)
  unfold ShortestPath.dagRelax dagRelax
  refine .bind (.refl _) fun sp => .bind (hf e) fun w => .bind (addI64_ref _ _) fun n => ?_
  rcases (HMap.get? sc e.dst).map ScoredPath.score with _ | x <;> exact .refl _

theorem negateScores_ref (m : Scores) : Run.Ref (LongestPath.negateScores m) (negateScores m) := by
  induction m with
  | nil => exact .refl _
  | cons p m ih => exact .bind (negI64_ref _) fun _ => .bind ih fun _ => .refl _

theorem dagLongestPaths_ref (dag : DAG) (w : WeightFn) (s : VertexId) :
    Prog.Ref (LongestPath.dagLongestPaths dag w s) (dagLongestPaths dag w s) :=
  .bind (dagShortestPathsWith_ref (fun e => negI64_ref (w e)) dag s) fun _ => .lift (negateScores_ref _)

theorem improvement_ref (w : WeightFn) (sc : Scores) (e : Edge) : Run.Ref (ShortestPath.improvement w sc e) (improvement w sc e) := by
  unfold ShortestPath.improvement improvement
  rcases HMap.get? sc e.src with _ | sp
  · exact .refl _
  · exact .bind (addI64_ref _ _) fun _ => .refl _

theorem bfRelax_ref (w : WeightFn) (sc : Scores) (e : Edge) : Run.Ref (ShortestPath.bfRelax w sc e) (bfRelax w sc e) :=
  .bind (improvement_ref w sc e) fun r => by rcases r with _ | sp <;> exact .refl _

theorem bfImprovable_ref (w : WeightFn) (sc : Scores) (l : List Edge) : Run.Ref (ShortestPath.bfImprovable w sc l) (bfImprovable w sc l) := by
  induction l with
  | nil => exact .refl _
  | cons e l ih =>
    refine .bind (improvement_ref w sc e) fun r => ?_
    split
    · exact .refl _
    · exact ih

theorem bellmanFord_ref (g : DirectedGraph) (w : WeightFn) (s : VertexId) : Run.Ref (ShortestPath.bellmanFord g w s) (bellmanFord g w s) :=
  .bind (.forEach (fun _ _ => .forEach (bfRelax_ref w) _ _) _ _) fun _ => .bind (bfImprovable_ref _ _ _) fun _ => .refl _

theorem spfa_ref (g : DirectedGraph) (w : WeightFn) (s : VertexId) : Prog.Ref (ShortestPath.spfa g w s) (spfa g w s) := by
  refine .loop (fun st => ?_) _
  unfold ShortestPath.spfaStep spfaStep
  rcases st.2.pop with _ | ⟨v, q⟩
  · exact .refl _
  · exact .bind (.lift (.forEach (fun (st : Scores × Queue VertexId) e => .bind (improvement_ref w st.1 e) fun r => by rcases r with _ | sp <;> exact .refl _) _ _))
      fun _ => .refl _

theorem residuals_ref (m : FlowMap) (l : List (Edge × Direction)) : Run.Ref (MaxFlow.residuals m l) (residuals m l) := by
  induction l with
  | nil => exact .refl _
  | cons ed l ih =>
    refine .bind ?_ fun _ => .bind ih fun _ => .refl _
    obtain ⟨e, d⟩ := ed
    cases d
    · exact .bind (.refl _) fun _ => subU64_ref _ _
    · exact .refl _

theorem updateEdge_ref (m : FlowMap) (d : Nat) (ed : Edge × Direction) : Run.Ref (MaxFlow.updateEdge m d ed) (updateEdge m d ed) := by
  obtain ⟨e, dir⟩ := ed
  cases dir
  · unfold MaxFlow.updateEdge updateEdge
    dsimp only
    rcases HMap.get? m e with _ | fc
    · exact .refl _
    · exact .bind (addU64_ref _ _) fun _ => .refl _
  · unfold MaxFlow.updateEdge updateEdge
    dsimp only
    rcases HMap.get? m e.reverse with _ | fc
    · exact .refl _
    · exact .bind (subU64_ref _ _) fun _ => .refl _

theorem updateEdges_ref (d : Nat) (l : List (Edge × Direction)) (m : FlowMap) : Run.Ref (MaxFlow.updateEdges d l m) (updateEdges d l m) := by
  induction l generalizing m with
  | nil => exact .refl _
  | cons ed l ih => exact .bind (updateEdge_ref m d ed) fun _ => ih _

theorem find_ref (g : DirectedGraph) (m : FlowMap) (s t : VertexId) :
    Prog.Ref (MaxFlow.findAugmentingPath g m s t) (findAugmentingPath g m s t) := by
  refine .loop (fun q => ?_) _
  unfold MaxFlow.nextStep nextStep
  rcases q.pop with _ | ⟨p, q'⟩
  · exact .refl _
  · refine .lift (.bind (.refl _) fun v => .bind ?_ fun r => by rcases r with _ | c <;> exact .refl _)
    unfold MaxFlow.checkPath checkPath
    split
    · exact .bind (.bind (residuals_ref _ _) fun _ => .refl _) fun _ => .refl _
    · exact .refl _

theorem maxFlow_ref (g : DirectedGraph) (cap : Edge → UInt64) (s t : VertexId) : Prog.Ref (MaxFlow.maxFlow g cap s t) (maxFlow g cap s t) := by
  refine .loop (fun st => .bind (find_ref _ _ _ _) fun r => ?_) _
  rcases r with _ | ⟨p, c⟩
  · exact .refl _
  · exact .lift (.bind (updateEdges_ref _ _ _) fun _ => .bind (addU64_ref _ _) fun _ => .refl _)

end Release
end GC
